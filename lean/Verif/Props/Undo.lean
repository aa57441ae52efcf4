import Verif.Props.DepositIff
/-! # Undoing a deposit (C68, C69)

C17 says that undoing a deposit never gains. These say how much it can lose. -/

namespace Halo
open _root_.Halo.Spec

/-- The arithmetic of undoing a deposit: `d` units bought `s` LP tokens in a pool with `p` units and `T` LP tokens; `q` come
back for them. -/
private theorem undo_arith {p d T s q D m : Nat} (hq : (p + d) * s * D < (q + 1) * (T + s) * D + (p + d) * (T + s))
    (hm : m * (T + s) ≤ (p + d) * s * D + p * D) :
    m * (T + s) < (q * (T + s) + p + (T + s)) * D + (p + d) * (T + s) := by
  have : (q * (T + s) + p + (T + s)) * D = (q + 1) * (T + s) * D + p * D := by ring
  omega

/-- A deposit into a pool with LP tokens outstanding and its undoing: which numbers can occur. -/
theorem undo_inv {c : Chain} (hc : c.Lawful) {w w1 w2 : World} (hw : Reachable c w) {k : PairSite}
    (hk : k.Sound c w) {assets : Asset × Asset} {tol : Option Nat} {funds : List Coin} {adv adv' : Adv}
    {gas gas' : Nat} {S : Addr} {s : Nat} (hS : c.IsUser S)
    (h1 : runTx c adv gas w S (.exec k.a (.provideLiquidity assets tol none) funds) = .ok w1)
    (hs : held w1 (.token k.lt) S = held w (.token k.lt) S + s)
    (h2 : runTx c adv' gas' w1 S (.exec k.lt (.send k.a s .withdrawLiquidity) []) = .ok w2)
    (hT : supplyAt w k.lt ≠ 0) :
    ∃ d0 d1 q0 q1, Acceptable c k w S assets tol none funds d0 d1 s ∧
      held w2 k.i0 S + d0 = held w k.i0 S + q0 ∧ held w2 k.i1 S + d1 = held w k.i1 S + q1 ∧
      (held w k.i0 k.a + d0) * s * 10 ^ 18 < (q0 + 1) * (supplyAt w k.lt + s) * 10 ^ 18 +
        (held w k.i0 k.a + d0) * (supplyAt w k.lt + s) ∧
      (held w k.i1 k.a + d1) * s * 10 ^ 18 < (q1 + 1) * (supplyAt w k.lt + s) * 10 ^ 18 +
        (held w k.i1 k.a + d1) * (supplyAt w k.lt + s) ∧
      (d0 * supplyAt w k.lt < (s + 1) * held w k.i0 k.a ∨ d1 * supplyAt w k.lt < (s + 1) * held w k.i1 k.a) := by
  obtain ⟨d0, d1, s', ha, hd⟩ := C67_deposit_exact hc hw hk hS h1
  obtain ⟨_, _, _, _, _, hk1, _⟩ := deposit_tx hc hw hk hS h1
  have hw1 : Reachable c w1 := .step _ _ hw (.tx _ _ _ _ _ _ hS h1)
  obtain ⟨q0, q1, hwd, _, _, _, a1, _, b1⟩ := C16_withdraw_tx hc hw1 hk1 hS h2
  have e : s' = s := by
    have := hd.lp
    simp only [Option.getD_none] at this
    omega
  subst e
  rw [hd.pair0, hd.supply] at a1
  rw [hd.pair1, hd.supply] at b1
  have u0 := hd.user0
  have u1 := hd.user1
  have x0 := hwd.user0
  have x1 := hwd.user1
  obtain ⟨n0, n1, _, _, hmin⟩ := ha.worth.later hT
  refine ⟨d0, d1, q0, q1, ha, by omega, by omega, a1, b1, ?_⟩
  rcases Nat.le_total (d0 * supplyAt w k.lt / held w k.i0 k.a) (d1 * supplyAt w k.lt / held w k.i1 k.a) with h | h
  · left
    rw [min_eq_left h] at hmin
    exact (Nat.div_lt_iff_lt_mul (Nat.pos_of_ne_zero n0)).mp (by omega)
  · right
    rw [min_eq_right h] at hmin
    exact (Nat.div_lt_iff_lt_mul (Nat.pos_of_ne_zero n1)).mp (by omega)

/-- **C68.** A user who deposits into a pool with `T` LP tokens and reserves `p` gets `s` LP tokens and withdraws them at once.
Of an asset of which the deposit was not worth another LP token (`d*T < (s+1)*p`) they lose less than
`p/(T+s) + 1 + (p+d)/10^18` units: less than what one LP token was worth before, and rounding. -/
theorem C68_undo_loss {c : Chain} (hc : c.Lawful) {w w1 w2 : World} (hw : Reachable c w) {k : PairSite}
    (hk : k.Sound c w) {assets : Asset × Asset} {tol : Option Nat} {funds : List Coin} {adv adv' : Adv}
    {gas gas' : Nat} {S : Addr} {s : Nat} (hS : c.IsUser S)
    (h1 : runTx c adv gas w S (.exec k.a (.provideLiquidity assets tol none) funds) = .ok w1)
    (hs : held w1 (.token k.lt) S = held w (.token k.lt) S + s)
    (h2 : runTx c adv' gas' w1 S (.exec k.lt (.send k.a s .withdrawLiquidity) []) = .ok w2)
    (hT : supplyAt w k.lt ≠ 0) :
    let T := supplyAt w k.lt
    let p0 := held w k.i0 k.a
    let p1 := held w k.i1 k.a
    ∃ d0 d1, Names k assets d0 d1 ∧ (d0 * T < (s + 1) * p0 ∨ d1 * T < (s + 1) * p1) ∧
      (d0 * T < (s + 1) * p0 → (held w k.i0 S - held w2 k.i0 S) * ((T + s) * 10 ^ 18) <
        (p0 + (T + s)) * 10 ^ 18 + (p0 + d0) * (T + s)) ∧
      (d1 * T < (s + 1) * p1 → (held w k.i1 S - held w2 k.i1 S) * ((T + s) * 10 ^ 18) <
        (p1 + (T + s)) * 10 ^ 18 + (p1 + d1) * (T + s)) := by
  intro T p0 p1
  obtain ⟨d0, d1, q0, q1, ha, e0, e1, a0, a1, hl⟩ := undo_inv hc hw hk hS h1 hs h2 hT
  refine ⟨d0, d1, ha.names, hl, fun h => ?_, fun h => ?_⟩
  · exact key e0 a0 h
  · exact key e1 a1 h
where
  key {x y d q p T s : Nat} (e : y + d = x + q) (a : (p + d) * s * 10 ^ 18 < (q + 1) * (T + s) * 10 ^ 18 + (p + d) * (T + s))
      (h : d * T < (s + 1) * p) : (x - y) * ((T + s) * 10 ^ 18) < (p + (T + s)) * 10 ^ 18 + (p + d) * (T + s) := by
    have h1 := undo_arith (m := d * 10 ^ 18) a (by nlinarith)
    rcases Nat.le_total x y with hxy | hxy
    · rw [Nat.sub_eq_zero_of_le hxy, Nat.zero_mul]
      rcases Nat.eq_zero_or_pos p with rfl | hp
      · omega
      · have : 0 < p * 10 ^ 18 := by positivity
        nlinarith
    · obtain ⟨z, rfl⟩ : ∃ z, x = y + z := ⟨x - y, by omega⟩
      have hd : d = z + q := by omega
      rw [Nat.add_sub_cancel_left]
      have : d * 10 ^ 18 * (T + s) = z * ((T + s) * 10 ^ 18) + q * (T + s) * 10 ^ 18 := by rw [hd]; ring
      have : (q * (T + s) + p + (T + s)) * 10 ^ 18 = q * (T + s) * 10 ^ 18 + (p + (T + s)) * 10 ^ 18 := by ring
      omega

/-- **C69 (partial).** A user who deposits `d0`, `d1` with slippage tolerance `t` and withdraws at once gets amounts `q` back with
`(1-t)*d < q + p/(T+s) + 1 + (p + d + 2*p')/10^18`, for both assets (`p'` is the reserve of the other one). Missing: without the
term `p/(T+s)`, which is what one LP token is worth (`C69_counterexample`). -/
theorem C69_partial {c : Chain} (hc : c.Lawful) {w w1 w2 : World} (hw : Reachable c w) {k : PairSite}
    (hk : k.Sound c w) {assets : Asset × Asset} {t : Nat} {funds : List Coin} {adv adv' : Adv}
    {gas gas' : Nat} {S : Addr} {s : Nat} (hS : c.IsUser S)
    (h1 : runTx c adv gas w S (.exec k.a (.provideLiquidity assets (some t) none) funds) = .ok w1)
    (hs : held w1 (.token k.lt) S = held w (.token k.lt) S + s)
    (h2 : runTx c adv' gas' w1 S (.exec k.lt (.send k.a s .withdrawLiquidity) []) = .ok w2)
    (hT : supplyAt w k.lt ≠ 0) :
    let T := supplyAt w k.lt
    let p0 := held w k.i0 k.a
    let p1 := held w k.i1 k.a
    ∃ d0 d1 q0 q1, Names k assets d0 d1 ∧ held w2 k.i0 S + d0 = held w k.i0 S + q0 ∧
      held w2 k.i1 S + d1 = held w k.i1 S + q1 ∧
      (10 ^ 18 - t) * d0 * (T + s) < (q0 * (T + s) + p0 + (T + s)) * 10 ^ 18 + (p0 + d0 + 2 * p1) * (T + s) ∧
      (10 ^ 18 - t) * d1 * (T + s) < (q1 * (T + s) + p1 + (T + s)) * 10 ^ 18 + (p1 + d1 + 2 * p0) * (T + s) := by
  intro T p0 p1
  obtain ⟨d0, d1, q0, q1, ha, e0, e1, a0, a1, hl⟩ := undo_inv hc hw hk hS h1 hs h2 hT
  have hT1 : 1 ≤ T := Nat.pos_of_ne_zero hT
  have hSa := (addr_facts hc hw hk.pair).2 S hS
  have l0 := held_add_lt hw.tokensOk (Ne.symm hSa) ha.fits.1 ha.ready.has0
  have l1 := held_add_lt hw.tokensOk (Ne.symm hSa) ha.fits.2 ha.ready.has1
  have hb := ha.tolerance t rfl
  obtain ⟨_, n0, n1, m0, m1, f0, f1⟩ := Pair.slippage_inv (ha.range t rfl)
    ((slippage_iff (ha.range t rfl) (by omega) (by omega) (by omega) (by omega)).mpr hb)
  have hD : DF = 10 ^ 18 := by norm_num [DF]
  rw [hD] at f0 f1
  have lim : ∀ {p d q p' : Nat}, (p + d) * s * 10 ^ 18 < (q + 1) * (T + s) * 10 ^ 18 + (p + d) * (T + s) →
      d * T < (s + 1) * p →
      (10 ^ 18 - t) * d * (T + s) < (q * (T + s) + p + (T + s)) * 10 ^ 18 + (p + d + 2 * p') * (T + s) := by
    intro p d q p' a h
    have x1 := undo_arith (m := d * 10 ^ 18) a (by nlinarith)
    have x2 : (10 ^ 18 - t) * d * (T + s) ≤ d * 10 ^ 18 * (T + s) := by
      rw [Nat.mul_comm d]
      exact Nat.mul_le_mul_right _ (Nat.mul_le_mul_right _ (Nat.sub_le _ _))
    have x3 : (p + d + 2 * p') * (T + s) = (p + d) * (T + s) + 2 * p' * (T + s) := by ring
    omega
  have other : ∀ {p d q p' d' : Nat}, (p + d) * s * 10 ^ 18 < (q + 1) * (T + s) * 10 ^ 18 + (p + d) * (T + s) →
      p' ≠ 0 → d' * T < (s + 1) * p' → d * (10 ^ 18 - t) * p' < (p * 10 ^ 18 + 2 * p') * d' →
      (10 ^ 18 - t) * d * (T + s) < (q * (T + s) + p + (T + s)) * 10 ^ 18 + (p + d + 2 * p') * (T + s) := by
    intro p d q p' d' a hp h f
    have y1 : d * (10 ^ 18 - t) * T < (p * 10 ^ 18 + 2 * p') * (s + 1) := by
      have z1 : d * (10 ^ 18 - t) * p' * T < (p * 10 ^ 18 + 2 * p') * d' * T := Nat.mul_lt_mul_of_pos_right f hT1
      have z2 : (p * 10 ^ 18 + 2 * p') * (d' * T) ≤ (p * 10 ^ 18 + 2 * p') * ((s + 1) * p') := Nat.mul_le_mul_left _ h.le
      have z3 : d * (10 ^ 18 - t) * T * p' < (p * 10 ^ 18 + 2 * p') * (s + 1) * p' := by nlinarith
      exact Nat.lt_of_mul_lt_mul_right z3
    have y2 : d * (10 ^ 18 - t) * s ≤ d * 10 ^ 18 * s :=
      Nat.mul_le_mul_right _ (Nat.mul_le_mul_left _ (Nat.sub_le _ _))
    have y3 : 2 * p' * (s + 1) ≤ 2 * p' * (T + s) := Nat.mul_le_mul_left _ (by omega)
    have y4 : (10 ^ 18 - t) * d * (T + s) = d * (10 ^ 18 - t) * T + d * (10 ^ 18 - t) * s := by ring
    have y5 : (p * 10 ^ 18 + 2 * p') * (s + 1) + d * 10 ^ 18 * s =
        (p + d) * s * 10 ^ 18 + p * 10 ^ 18 + 2 * p' * (s + 1) := by ring
    have y6 : (q * (T + s) + p + (T + s)) * 10 ^ 18 + (p + d + 2 * p') * (T + s) =
      (q + 1) * (T + s) * 10 ^ 18 + (p + d) * (T + s) + p * 10 ^ 18 + 2 * p' * (T + s) := by ring
    omega
  refine ⟨d0, d1, q0, q1, ha.names, e0, e1, ?_⟩
  rcases hl with h | h
  · exact ⟨lim a0 h, other a1 m0 h f1⟩
  · exact ⟨other a0 m1 h f0, lim a1 h⟩

/-- What comes back, as a fraction of what was paid in: `e` is the part of the deposit (in units of `1/D`) that the pool's ratio covers. -/
theorem fraction_arith {p d q r e T s D : Nat} (a : (p + d) * s * D < (q + 1) * (T + s) * D + (p + d) * (T + s)) (x0 : e ≤ d * D)
    (y : e * T ≤ (p * D + r) * (s + 1)) : e * s < (s + 1) * ((q + 1) * D + p + d + r) := by
  have x1 : e * (T + s) ≤ (s + 1) * ((p + d) * D + r) := by
    have e1 : e * (T + s) = e * T + e * s := by ring
    have e2 : e * s ≤ d * D * (s + 1) := Nat.mul_le_mul x0 (Nat.le_succ s)
    have e3 : (s + 1) * ((p + d) * D + r) = (p * D + r) * (s + 1) + d * D * (s + 1) := by ring
    omega
  have x2 : e * (T + s) * s ≤ (s + 1) * ((p + d) * D + r) * s := Nat.mul_le_mul_right _ x1
  have x3 : (s + 1) * ((p + d) * s * D) < (s + 1) * ((q + 1) * (T + s) * D + (p + d) * (T + s)) :=
    Nat.mul_lt_mul_of_pos_left a (Nat.succ_pos s)
  have x4 : (s + 1) * (r * s) ≤ (s + 1) * (r * (T + s)) := Nat.mul_le_mul_left _ (Nat.mul_le_mul_left _ (by omega))
  have x5 : e * s * (T + s) < (s + 1) * ((q + 1) * D + p + d + r) * (T + s) := by
    have e1 : e * s * (T + s) = e * (T + s) * s := by ring
    have e2 : (s + 1) * ((p + d) * D + r) * s = (s + 1) * ((p + d) * s * D) + (s + 1) * (r * s) := by ring
    have e3 : (s + 1) * ((q + 1) * D + p + d + r) * (T + s) =
      (s + 1) * ((q + 1) * (T + s) * D + (p + d) * (T + s)) + (s + 1) * (r * (T + s)) := by ring
    omega
  exact Nat.lt_of_mul_lt_mul_right x5

/-- **C69 (partial), as a fraction.** With slippage tolerance `t`, undoing a deposit that bought `s` LP tokens gives back of both
assets at least `(1-t)*s/(s+1)` of what was paid in, up to one unit and rounding: with one LP token bought, half of what the tolerance
promises; with many, nearly all of it. -/
theorem C69_fraction_partial {c : Chain} (hc : c.Lawful) {w w1 w2 : World} (hw : Reachable c w) {k : PairSite}
    (hk : k.Sound c w) {assets : Asset × Asset} {t : Nat} {funds : List Coin} {adv adv' : Adv}
    {gas gas' : Nat} {S : Addr} {s : Nat} (hS : c.IsUser S)
    (h1 : runTx c adv gas w S (.exec k.a (.provideLiquidity assets (some t) none) funds) = .ok w1)
    (hs : held w1 (.token k.lt) S = held w (.token k.lt) S + s)
    (h2 : runTx c adv' gas' w1 S (.exec k.lt (.send k.a s .withdrawLiquidity) []) = .ok w2)
    (hT : supplyAt w k.lt ≠ 0) :
    let p0 := held w k.i0 k.a
    let p1 := held w k.i1 k.a
    ∃ d0 d1 q0 q1, Names k assets d0 d1 ∧ held w2 k.i0 S + d0 = held w k.i0 S + q0 ∧
      held w2 k.i1 S + d1 = held w k.i1 S + q1 ∧
      (10 ^ 18 - t) * d0 * s < (s + 1) * ((q0 + 1) * 10 ^ 18 + p0 + d0 + 2 * p1) ∧
      (10 ^ 18 - t) * d1 * s < (s + 1) * ((q1 + 1) * 10 ^ 18 + p1 + d1 + 2 * p0) := by
  intro p0 p1
  obtain ⟨d0, d1, q0, q1, ha, e0, e1, a0, a1, hl⟩ := undo_inv hc hw hk hS h1 hs h2 hT
  have hT1 : 1 ≤ supplyAt w k.lt := Nat.pos_of_ne_zero hT
  have hSa := (addr_facts hc hw hk.pair).2 S hS
  have l0 := held_add_lt hw.tokensOk (Ne.symm hSa) ha.fits.1 ha.ready.has0
  have l1 := held_add_lt hw.tokensOk (Ne.symm hSa) ha.fits.2 ha.ready.has1
  obtain ⟨_, n0, n1, m0, m1, f0, f1⟩ := Pair.slippage_inv (ha.range t rfl)
    ((slippage_iff (ha.range t rfl) (by omega) (by omega) (by omega) (by omega)).mpr (ha.tolerance t rfl))
  have hD : DF = 10 ^ 18 := by norm_num [DF]
  rw [hD] at f0 f1
  generalize supplyAt w k.lt = T at *
  have fin : ∀ {p d q r : Nat}, (p + d) * s * 10 ^ 18 < (q + 1) * (T + s) * 10 ^ 18 + (p + d) * (T + s) →
      d * (10 ^ 18 - t) * T ≤ (p * 10 ^ 18 + r) * (s + 1) →
      (10 ^ 18 - t) * d * s < (s + 1) * ((q + 1) * 10 ^ 18 + p + d + r) := by
    intro p d q r a y
    rw [Nat.mul_comm (10 ^ 18 - t) d]
    exact fraction_arith a (Nat.mul_le_mul_left _ (Nat.sub_le _ _)) y
  have other : ∀ {p d p' d' : Nat}, p' ≠ 0 → d' * T < (s + 1) * p' → d * (10 ^ 18 - t) * p' < (p * 10 ^ 18 + 2 * p') * d' →
      d * (10 ^ 18 - t) * T ≤ (p * 10 ^ 18 + 2 * p') * (s + 1) := by
    intro p d p' d' hp h f
    have z1 : d * (10 ^ 18 - t) * p' * T < (p * 10 ^ 18 + 2 * p') * d' * T := Nat.mul_lt_mul_of_pos_right f hT1
    have z2 : (p * 10 ^ 18 + 2 * p') * (d' * T) ≤ (p * 10 ^ 18 + 2 * p') * ((s + 1) * p') := Nat.mul_le_mul_left _ h.le
    have z3 : d * (10 ^ 18 - t) * T * p' < (p * 10 ^ 18 + 2 * p') * (s + 1) * p' := by nlinarith
    exact (Nat.lt_of_mul_lt_mul_right z3).le
  have lim : ∀ {p d p' : Nat}, d * T < (s + 1) * p → d * (10 ^ 18 - t) * T ≤ (p * 10 ^ 18 + 2 * p') * (s + 1) := by
    intro p d p' h
    calc d * (10 ^ 18 - t) * T ≤ d * 10 ^ 18 * T := Nat.mul_le_mul_right _ (Nat.mul_le_mul_left _ (Nat.sub_le _ _))
      _ = d * T * 10 ^ 18 := by ring
      _ ≤ (s + 1) * p * 10 ^ 18 := Nat.mul_le_mul_right _ h.le
      _ ≤ (s + 1) * p * 10 ^ 18 + 2 * p' * (s + 1) := Nat.le_add_right _ _
      _ = (p * 10 ^ 18 + 2 * p') * (s + 1) := by ring
  refine ⟨d0, d1, q0, q1, ha.names, e0, e1, ?_⟩
  rcases hl with h | h
  · exact ⟨fin a0 (lim h), fin a1 (other m0 h f1)⟩
  · exact ⟨fin a0 (other m1 h f0), fin a1 (lim h)⟩

namespace Demo

example := C68_undo_loss lawful allowed_reachable sound_allowed isUser_user added_run (s := 1414) (by decide +kernel)
  back_run (by decide +kernel)
example := C69_fraction_partial lawful allowed_reachable sound_allowed isUser_user added_run (s := 1414) (by decide +kernel)
  back_run (by decide +kernel)
example := C69_partial lawful allowed_reachable sound_allowed isUser_user added_run (s := 1414) (by decide +kernel)
  back_run (by decide +kernel)

/-- Several people sign messages one after the other. -/
def runsBy : List (Addr × CosmosMsg) → World → R World
  | [], w => .ok w
  | m :: t, w => do
    let w ← runTx chain idle 20 w m.1 m.2
    runsBy t w

theorem later_runsBy {l : List (Addr × CosmosMsg)} (hl : ∀ m ∈ l, m.1 = user ∨ m.1 = user2) :
    ∀ {w w' : World}, runsBy l w = .ok w' → Later chain w w' := by
  suffices h : ∀ {u w w' : World}, Later chain u w → runsBy l w = .ok w' → Later chain u w' from
    fun {_ _} hr => h (.refl _) hr
  induction l with
  | nil => intro u w w' hu h; cases h; exact hu
  | cons m t ih =>
    intro u w w' hu h
    simp only [runsBy, bind_eq_ok] at h
    obtain ⟨v, h1, h2⟩ := h
    refine ih (fun m hm => hl m (List.mem_cons_of_mem _ hm)) (.step _ _ _ hu (.tx idle 20 w v m.1 m.2 ?_ h1)) h2
    rcases hl m List.mem_cons_self with e | e <;> rw [e]
    exacts [isUser_user, isUser_user2]

/-- `user`, who made the first deposit, takes out all but one LP token and then gives the pair 9999 A and 19998 B.
`user2` gets ready for a deposit. -/
def trap : List (Addr × CosmosMsg) :=
  [(user, .exec lpAB (.send pAB 14141 .withdrawLiquidity) []), (user, .exec tA (.transfer pAB 9999) []),
   (user, .exec tB (.transfer pAB 19998) []), (user, .exec tA (.mint user2 40000) []), (user, .exec tB (.mint user2 40000) []),
   (user2, .exec tA (.increaseAllowance pAB 40000 none) []), (user2, .exec tB (.increaseAllowance pAB 40000 none) [])]
def trapped : World := worldOf (runsBy trap deployed)
theorem trapped_run : runsBy trap deployed = .ok trapped := worldOf_eq (by decide +kernel)
theorem trapped_reachable : Reachable chain trapped := deployed_reachable.later (later_runsBy (by decide) trapped_run)
theorem sound_trapped : siteAB.Sound chain trapped :=
  sound_of (k := siteAB) (x := tA) (y := tB) (by decide +kernel) ⟨rfl, rfl, rfl⟩ rfl rfl (by decide +kernel)
    (by decide +kernel)
example : siteAB.pool trapped = ⟨10000, 20000, 1⟩ := by decide +kernel

/-- `user2` deposits 19999 A and 39998 B, exactly in the ratio of the pool, and takes it out again. -/
def caught : World := worldOf (runTx chain idle 20 trapped user2
  (.exec pAB (.provideLiquidity (⟨.token tA, 19999⟩, ⟨.token tB, 39998⟩) (some 0) none) []))
theorem caught_run : runTx chain idle 20 trapped user2
    (.exec pAB (.provideLiquidity (⟨.token tA, 19999⟩, ⟨.token tB, 39998⟩) (some 0) none) []) = .ok caught :=
  worldOf_eq (by decide +kernel)
def escaped : World := worldOf (runTx chain idle 20 caught user2 (.exec lpAB (.send pAB 1 .withdrawLiquidity) []))
theorem escaped_run : runTx chain idle 20 caught user2 (.exec lpAB (.send pAB 1 .withdrawLiquidity) []) = .ok escaped :=
  worldOf_eq (by decide +kernel)
example : siteAB.pool escaped = ⟨10000 + 5000, 20000 + 9999, 1⟩ := by decide +kernel
example := C69_fraction_partial lawful trapped_reachable sound_trapped isUser_user2 caught_run (s := 1) (by decide +kernel)
  escaped_run (by decide +kernel)
example := C69_partial lawful trapped_reachable sound_trapped isUser_user2 caught_run (s := 1) (by decide +kernel)
  escaped_run (by decide +kernel)

end Demo

/-- **C69 is false of the code**: a deposit in exactly the ratio of the pool, with slippage tolerance 0, can lose a quarter of
both assets when it is undone at once. The holder of the only other LP token, who inflated its worth by giving the pair tokens,
gets the rest. -/
theorem C69_counterexample : ∃ (c : Chain) (w w1 w2 : World) (k : PairSite) (S : Addr) (assets : Asset × Asset) (d0 d1 s : Nat)
    (adv : Adv) (gas : Nat), c.Lawful ∧ Reachable c w ∧ k.Sound c w ∧ c.IsUser S ∧ Names k assets d0 d1 ∧
    supplyAt w k.lt ≠ 0 ∧ d0 * held w k.i1 k.a = d1 * held w k.i0 k.a ∧
    runTx c adv gas w S (.exec k.a (.provideLiquidity assets (some 0) none) []) = .ok w1 ∧
    held w1 (.token k.lt) S = held w (.token k.lt) S + s ∧
    runTx c adv gas w1 S (.exec k.lt (.send k.a s .withdrawLiquidity) []) = .ok w2 ∧
    held w2 k.i0 S + d0 / 4 ≤ held w k.i0 S ∧ held w2 k.i1 S + d1 / 4 ≤ held w k.i1 S :=
  ⟨Demo.chain, Demo.trapped, Demo.caught, Demo.escaped, Demo.siteAB, Demo.user2, _, 19999, 39998, 1, Demo.idle, 20, Demo.lawful,
    Demo.trapped_reachable, Demo.sound_trapped, Demo.isUser_user2, .inl rfl, by decide +kernel, by decide +kernel,
    Demo.caught_run, by decide +kernel, Demo.escaped_run, by decide +kernel, by decide +kernel⟩

end Halo
