import Verif.Props.Refuge
/-! # What an attack on a deposit can gain (C138)

C113 bounds what others can gain by surrounding a swap. Here they surround a deposit: they use the pair as they like before it and
after it, until the depositor takes out their share. -/

namespace Halo
open _root_.Halo.Spec

namespace SandwichL

/-- The worth of an LP token, by the product, over two stages. -/
theorem chain {P T P' T' P'' T'' : ℚ} (hT : 0 < T') (h : P * T' ^ 2 ≤ P' * T ^ 2) (h' : P' * T'' ^ 2 ≤ P'' * T' ^ 2) :
    P * T'' ^ 2 ≤ P'' * T ^ 2 := by
  refine le_of_mul_le_mul_right ?_ (show 0 < T' ^ 2 by positivity)
  have a := mul_le_mul_of_nonneg_right h (sq_nonneg T'')
  have b := mul_le_mul_of_nonneg_right h' (sq_nonneg T)
  linarith

/-- With both reserves per LP token, the product per LP token does not fall. -/
theorem both {r0 r1 T r0' r1' T' : Nat} (h0 : r0 * T' ≤ r0' * T) (h1 : r1 * T' ≤ r1' * T) :
    ((r0 : ℚ) * r1) * (T' : ℚ) ^ 2 ≤ (r0' * r1') * (T : ℚ) ^ 2 := by
  have q : ((r0 * T' * (r1 * T') : Nat) : ℚ) ≤ ((r0' * T * (r1' * T) : Nat) : ℚ) := by exact_mod_cast Nat.mul_le_mul h0 h1
  push_cast at q
  linarith

/-- At prices at which two amounts are worth the same, no two amounts with at least their product are worth less. -/
theorem dear {a b x y P Q : ℚ} (ha : 0 ≤ a) (hb : 0 ≤ b) (hx : 0 ≤ x) (hy : 0 ≤ y) (hP : 0 ≤ P) (hQ : 0 ≤ Q) (h : P * a = Q * b) (hp : a * b ≤ x * y) :
    P * a + Q * b ≤ P * x + Q * y := by
  refine (pow_le_pow_iff_left₀ (by positivity) (by positivity) (n := 2) (by norm_num)).mp ?_
  have h1 : (P * a + Q * b) ^ 2 = 4 * (P * Q) * (a * b) := by
    have e1 : P * a * (P * a) = P * a * (Q * b) := by rw [h]
    have e2 : Q * b * (Q * b) = P * a * (Q * b) := by rw [h]
    linarith
  have h2 := mul_le_mul_of_nonneg_left hp (show 0 ≤ 4 * (P * Q) by positivity)
  nlinarith [sq_nonneg (P * x - Q * y)]

end SandwichL
open SandwichL RefugeL

/-- **C138.** Others use a pair as they like, `S` deposits `d0`, `d1` and gets `s` LP tokens, others use it as they like, and `S`
withdraws these `s` for `q0`, `q1`. If there are as many LP tokens in the end as in the beginning, then at the prices of the
pool in the beginning all others together (`G0`, `G1` is what left the pair on balance and not to `S`) have gained no more than
what `S` lost. With tolerance `t` and a deposit in the ratio of the pool in the beginning, this is at most the fraction
`1 - sqrt (1-t)` of the deposit, up to the rounding of C136. -/
theorem C138_no_attack_on_deposit {c : Chain} (hc : c.Lawful) {w0 w w1 w2 w3 : World} (hw0 : Reachable c w0) {k : PairSite}
    (hk0 : k.Sound c w0) {tr1 tr2 : List (World × Frame)} (hl1 : Hist c w0 tr1 w) (f1 : ∀ e ∈ k.calls c tr1, ¬ First e)
    (n1 : ∀ e ∈ k.calls c tr1, ¬ Leak e) {assets : Asset × Asset} {t : Nat} {funds : List Coin} {adv adv' : Adv} {gas gas' : Nat}
    {S : Addr} {s : Nat} (hS : c.IsUser S)
    (h1 : runTx c adv gas w S (.exec k.a (.provideLiquidity assets (some t) none) funds) = .ok w1)
    (hs : held w1 (.token k.lt) S = held w (.token k.lt) S + s) (hl2 : Hist c w1 tr2 w2) (f2 : ∀ e ∈ k.calls c tr2, ¬ First e)
    (n2 : ∀ e ∈ k.calls c tr2, ¬ Leak e)
    (h2 : runTx c adv' gas' w2 S (.exec k.lt (.send k.a s .withdrawLiquidity) []) = .ok w3)
    (hT0 : supplyAt w0 k.lt ≠ 0) (hT : supplyAt w k.lt ≠ 0) (hTT : supplyAt w0 k.lt ≤ supplyAt w3 k.lt)
    {P0 P1 : ℚ} (hP0 : 0 ≤ P0) (hP1 : 0 ≤ P1) (hP : P0 * held w0 k.i0 k.a = P1 * held w0 k.i1 k.a) :
    k.Broken w ∨ k.Broken w2 ∨ ∃ d0 d1 q0 q1 : Nat, Names k assets d0 d1 ∧ held w1 k.i0 S + d0 = held w k.i0 S ∧
      held w1 k.i1 S + d1 = held w k.i1 S ∧ held w3 k.i0 S = held w2 k.i0 S + q0 ∧ held w3 k.i1 S = held w2 k.i1 S + q1 ∧
      ∀ G0 G1 : ℚ, (held w3 k.i0 k.a : ℚ) + G0 + q0 = held w0 k.i0 k.a + d0 → (held w3 k.i1 k.a : ℚ) + G1 + q1 = held w0 k.i1 k.a + d1 →
        P0 * G0 + P1 * G1 ≤ (P0 * d0 + P1 * d1) - (P0 * q0 + P1 * q1) ∧
        (P0 * d0 = P1 * d1 → (1 - t / 10 ^ 18) * (P0 * d0 + P1 * d1) ^ 2 ≤ (((s : ℚ) + 1) / s) ^ 2 *
          (1 + 2 / 10 ^ 18 * max ((held w k.i0 k.a : ℚ) / held w k.i1 k.a) ((held w k.i1 k.a : ℚ) / held w k.i0 k.a)) *
          ((P0 * d0 + P1 * d1) - (P0 * G0 + P1 * G1) + P0 * (1 + (held w2 k.i0 k.a : ℚ) / 10 ^ 18) +
            P1 * (1 + (held w2 k.i1 k.a : ℚ) / 10 ^ 18)) ^ 2) := by
  rcases C22_no_leak_partial hc hw0 hl1 hk0 f1 n1 with hb | v1
  · exact .inl hb
  rcases C21_constant_product hc hw0 hl1 hk0 with hb | ⟨hk, _⟩
  · exact .inl hb
  have hw := hw0.later hl1.later
  have hw1 : Reachable c w1 := .step _ _ hw (.tx _ _ _ _ _ _ hS h1)
  obtain ⟨hk1, _⟩ := entered hc hw hk hS h1 hs
  rcases C22_no_leak_partial hc hw1 hl2 hk1 f2 n2 with hb | v2
  · exact .inr (.inl hb)
  rcases C21_constant_product hc hw1 hl2 hk1 with hb | ⟨hk2, _⟩
  · exact .inr (.inl hb)
  rcases C136_worth hc hw hk hS h1 hs hl2 f2 n2 h2 with hb | ⟨d0, d1, q0, q1, a1, a2, a3, a4, a5, hv⟩
  · exact .inr (.inl hb)
  refine .inr (.inr ⟨d0, d1, q0, q1, a1, a2, a3, a4, a5, fun G0 G1 e0 e1 => ?_⟩)
  have hw2 := hw1.later hl2.later
  obtain ⟨⟨b0, b1⟩, _⟩ := C15_deposit_tx hc hw hk hS h1 hT
  obtain ⟨_, _, _, _, _, _, _, _, _, hdep⟩ := deposit_tx hc hw hk hS h1
  obtain ⟨c0, c1⟩ := C16_withdraw_tx_backing hc hw2 hk2 hS h2
  have hT2 := (withdraw_tx hc hw2 hk2 hS h2).1
  have hT1 : supplyAt w1 k.lt ≠ 0 := by rw [hdep.supply]; omega
  simp only [PairSite.pool] at v1 v2
  have V1 : ((held w0 k.i0 k.a : ℚ) * held w0 k.i1 k.a) * (supplyAt w k.lt : ℚ) ^ 2 ≤
      (held w k.i0 k.a * held w k.i1 k.a) * (supplyAt w0 k.lt : ℚ) ^ 2 := by exact_mod_cast v1
  have V2 : ((held w1 k.i0 k.a : ℚ) * held w1 k.i1 k.a) * (supplyAt w2 k.lt : ℚ) ^ 2 ≤
      (held w2 k.i0 k.a * held w2 k.i1 k.a) * (supplyAt w1 k.lt : ℚ) ^ 2 := by exact_mod_cast v2
  have W := SandwichL.chain (by exact_mod_cast Nat.pos_of_ne_zero hT2) (SandwichL.chain (by exact_mod_cast Nat.pos_of_ne_zero hT1)
    (SandwichL.chain (by exact_mod_cast Nat.pos_of_ne_zero hT) V1 (both b0 b1)) V2) (both c0 c1)
  have hp : (held w0 k.i0 k.a : ℚ) * held w0 k.i1 k.a ≤ held w3 k.i0 k.a * held w3 k.i1 k.a := by
    have hq0 : (0 : ℚ) < supplyAt w0 k.lt := by exact_mod_cast Nat.pos_of_ne_zero hT0
    have hq : (supplyAt w0 k.lt : ℚ) ≤ supplyAt w3 k.lt := by exact_mod_cast hTT
    refine le_of_mul_le_mul_right ?_ (show (0 : ℚ) < (supplyAt w0 k.lt : ℚ) ^ 2 by positivity)
    exact (mul_le_mul_of_nonneg_left (pow_le_pow_left₀ hq0.le hq 2) (by positivity)).trans W
  have hd := dear (by positivity) (by positivity) (by positivity) (by positivity) hP0 hP1 hP hp
  have g0 : P0 * G0 = P0 * held w0 k.i0 k.a + P0 * d0 - P0 * q0 - P0 * held w3 k.i0 k.a := by
    rw [show G0 = held w0 k.i0 k.a + d0 - q0 - held w3 k.i0 k.a by linarith]; ring
  have g1 : P1 * G1 = P1 * held w0 k.i1 k.a + P1 * d1 - P1 * q1 - P1 * held w3 k.i1 k.a := by
    rw [show G1 = held w0 k.i1 k.a + d1 - q1 - held w3 k.i1 k.a by linarith]; ring
  have hgain : P0 * G0 + P1 * G1 ≤ (P0 * d0 + P1 * d1) - (P0 * q0 + P1 * q1) := by linarith
  refine ⟨hgain, fun hPd => (hv P0 P1 hP0 hP1 hPd).trans (mul_le_mul_of_nonneg_left (pow_le_pow_left₀ (by positivity) (by linarith) 2) ?_)⟩
  have : (0 : ℚ) ≤ max ((held w k.i0 k.a : ℚ) / held w k.i1 k.a) ((held w k.i1 k.a : ℚ) / held w k.i0 k.a) :=
    le_max_of_le_left (by positivity)
  positivity

namespace Demo

/-- The attack of `nudge`, step by step: `user2` is ready for a deposit, `user` sells 500 A. -/
def poised : World := worldOf (runsBy (nudge.take 4) deployed)
theorem poised_run : runsBy (nudge.take 4) deployed = .ok poised := worldOf_eq (by decide +kernel)
theorem poised_reachable : Reachable chain poised := deployed_reachable.later (later_runsBy (by decide) poised_run)
theorem sound_poised : siteAB.Sound chain poised :=
  sound_of (k := siteAB) (x := tA) (y := tB) (by decide +kernel) ⟨rfl, rfl, rfl⟩ rfl rfl (by decide +kernel) (by decide +kernel)
def strike : List CosmosMsg := [.exec tA (.send pAB 500 (.swap none none none)) []]
def struck : World := worldOf (runs strike poised)
theorem struck_run : runs strike poised = .ok struck := worldOf_eq (by decide +kernel)
theorem strike_calls : siteAB.calls chain (traces strike poised) = [(⟨10000, 20000, 14142⟩, .swap0 500)] := by decide +kernel
/-- `user2` deposits 1000 A and 2000 B with a tolerance of 10 %. -/
def braced : World := worldOf (runTx chain idle 20 struck user2
  (.exec pAB (.provideLiquidity (⟨.token tA, 1000⟩, ⟨.token tB, 2000⟩) (some (10 ^ 17)) none) []))
theorem braced_run : runTx chain idle 20 struck user2
    (.exec pAB (.provideLiquidity (⟨.token tA, 1000⟩, ⟨.token tB, 2000⟩) (some (10 ^ 17)) none) []) = .ok braced :=
  worldOf_eq (by decide +kernel)
/-- `user` buys the A back, and `user2` leaves. -/
def settled : World := worldOf (runs rebound braced)
theorem settled_run : runs rebound braced = .ok settled := worldOf_eq (by decide +kernel)
theorem settle_calls : siteAB.calls chain (traces rebound braced) = [(⟨11500, 21050, 15488⟩, .swap1 1000)] := by decide +kernel
def wentHome : World := worldOf (runTx chain idle 20 settled user2 (.exec lpAB (.send pAB 1346 .withdrawLiquidity) []))
theorem wentHome_run : runTx chain idle 20 settled user2 (.exec lpAB (.send pAB 1346 .withdrawLiquidity) []) = .ok wentHome :=
  worldOf_eq (by decide +kernel)
example := C138_no_attack_on_deposit lawful poised_reachable sound_poised (hist_runs struck_run) (by rw [strike_calls]; simp [First])
  (by rw [strike_calls]; simp [Leak, Slip]) isUser_user2 braced_run (s := 1346) (by decide +kernel) (hist_runs settled_run)
  (by rw [settle_calls]; simp [First]) (by rw [settle_calls]; simp [Leak, Slip]) wentHome_run (by decide +kernel) (by decide +kernel)
  (by decide +kernel) (P0 := 2) (P1 := 1) (by norm_num) (by norm_num)
  (by rw [show held poised siteAB.i0 siteAB.a = 10000 by decide +kernel, show held poised siteAB.i1 siteAB.a = 20000 by decide +kernel]
      norm_num)
/-- `user2` loses 46 A and 84 B, worth 176 at two B per A. The pool has gained 26 A and 134 B, worth 186: `user`, who owns all other
LP tokens, has lost 10 by the swaps. -/
example : siteAB.pool wentHome = ⟨10026, 20134, 14142⟩ ∧ held wentHome (.token tA) user2 + 46 = held poised (.token tA) user2 ∧
    held wentHome (.token tB) user2 + 84 = held poised (.token tB) user2 := by decide +kernel

end Demo
end Halo
