import Verif.Props.Sandwich
/-! # What an attack on a withdrawal can gain: nothing (C139)

A withdrawal has no parameter that would protect it (`withdraw_liquidity`, contracts/halo-pair/src/contract.rs:342-388). It needs none. -/

namespace Halo
open _root_.Halo.Spec SandwichL

/-- **C139.** Others use a pair as they like, `S` withdraws `x` of what were `T` LP tokens in the beginning, and others use it as they
like. If there are at least `T - x` LP tokens in the end, then at the prices of the pool in the beginning all others together
(`G0`, `G1` is what left the pair on balance and not to `S`) have gained at most one unit and `1/10^18` of the reserve of each asset;
and what `S` got is worth, up to as much, the share `x/T` of the pool in the beginning. -/
theorem C139_no_attack_on_withdrawal {c : Chain} (hc : c.Lawful) {w w1 w2 w3 : World} (hw : Reachable c w) {k : PairSite}
    (hk : k.Sound c w) {tr1 tr2 : List (World × Frame)} (hl1 : Hist c w tr1 w1) (f1 : ∀ e ∈ k.calls c tr1, ¬ First e)
    (n1 : ∀ e ∈ k.calls c tr1, ¬ Leak e) {adv : Adv} {gas : Nat} {S : Addr} {x : Nat} (hS : c.IsUser S)
    (h : runTx c adv gas w1 S (.exec k.lt (.send k.a x .withdrawLiquidity) []) = .ok w2) (hl2 : Hist c w2 tr2 w3)
    (f2 : ∀ e ∈ k.calls c tr2, ¬ First e) (n2 : ∀ e ∈ k.calls c tr2, ¬ Leak e)
    (hT : supplyAt w k.lt ≠ 0) (hT2 : supplyAt w2 k.lt ≠ 0) (hTT : supplyAt w k.lt ≤ supplyAt w3 k.lt + x)
    (hx : x ≤ supplyAt w k.lt)
    {P0 P1 : ℚ} (hP0 : 0 ≤ P0) (hP1 : 0 ≤ P1) (hP : P0 * held w k.i0 k.a = P1 * held w k.i1 k.a) :
    k.Broken w1 ∨ k.Broken w3 ∨ ∃ q0 q1 : Nat, held w2 k.i0 S = held w1 k.i0 S + q0 ∧ held w2 k.i1 S = held w1 k.i1 S + q1 ∧
      (x : ℚ) / supplyAt w k.lt * (P0 * held w k.i0 k.a + P1 * held w k.i1 k.a) ≤
        P0 * (q0 + 1 + (held w1 k.i0 k.a : ℚ) / 10 ^ 18) + P1 * (q1 + 1 + (held w1 k.i1 k.a : ℚ) / 10 ^ 18) ∧
      ∀ G0 G1 : ℚ, (held w3 k.i0 k.a : ℚ) + G0 + q0 = held w k.i0 k.a → (held w3 k.i1 k.a : ℚ) + G1 + q1 = held w k.i1 k.a →
        P0 * G0 + P1 * G1 ≤ P0 * (1 + (held w1 k.i0 k.a : ℚ) / 10 ^ 18) + P1 * (1 + (held w1 k.i1 k.a : ℚ) / 10 ^ 18) := by
  rcases C22_no_leak_partial hc hw hl1 hk f1 n1 with hb | v1
  · exact .inl hb
  rcases C21_constant_product hc hw hl1 hk with hb | ⟨hk1, _⟩
  · exact .inl hb
  rcases C86_withdraw_later hc hw hl1 hk f1 n1 hS h with hb | ⟨q0, q1, a0, a1, hv⟩
  · exact .inl hb
  have hw1 := hw.later hl1.later
  have hw2 : Reachable c w2 := .step _ _ hw1 (.tx _ _ _ _ _ _ hS h)
  obtain ⟨hT1, _, _, _, hk2, _⟩ := withdraw_tx hc hw1 hk1 hS h
  rcases C22_no_leak_partial hc hw2 hl2 hk2 f2 n2 with hb | v2
  · exact .inr (.inl hb)
  obtain ⟨c0, c1⟩ := C16_withdraw_tx_backing hc hw1 hk1 hS h
  simp only [PairSite.pool] at v1 v2
  have V1 : ((held w k.i0 k.a : ℚ) * held w k.i1 k.a) * (supplyAt w1 k.lt : ℚ) ^ 2 ≤
      (held w1 k.i0 k.a * held w1 k.i1 k.a) * (supplyAt w k.lt : ℚ) ^ 2 := by exact_mod_cast v1
  have V2 : ((held w2 k.i0 k.a : ℚ) * held w2 k.i1 k.a) * (supplyAt w3 k.lt : ℚ) ^ 2 ≤
      (held w3 k.i0 k.a * held w3 k.i1 k.a) * (supplyAt w2 k.lt : ℚ) ^ 2 := by exact_mod_cast v2
  have W := SandwichL.chain (by exact_mod_cast Nat.pos_of_ne_zero hT2) (SandwichL.chain (by exact_mod_cast Nat.pos_of_ne_zero hT1)
    V1 (both c0 c1)) V2
  have hTq : (0 : ℚ) < supplyAt w k.lt := by exact_mod_cast Nat.pos_of_ne_zero hT
  have hxq : (x : ℚ) ≤ supplyAt w k.lt := by exact_mod_cast hx
  have hTTq : (supplyAt w k.lt : ℚ) ≤ supplyAt w3 k.lt + x := by exact_mod_cast hTT
  have hv' : (held w k.i0 k.a : ℚ) * held w k.i1 k.a * (x * 10 ^ 18) ^ 2 ≤
      ((q0 + 1) * 10 ^ 18 + held w1 k.i0 k.a) * ((q1 + 1) * 10 ^ 18 + held w1 k.i1 k.a) * supplyAt w k.lt ^ 2 := by exact_mod_cast hv
  have share : ∀ {l A B : ℚ}, 0 ≤ l → 0 ≤ A → 0 ≤ B →
      (held w k.i0 k.a : ℚ) * held w k.i1 k.a * l ^ 2 ≤ A * B * (supplyAt w k.lt : ℚ) ^ 2 →
      l / supplyAt w k.lt * (P0 * held w k.i0 k.a + P1 * held w k.i1 k.a) ≤ P0 * A + P1 * B := by
    intro l A B hl hA hB hle
    have := dear (a := l / supplyAt w k.lt * held w k.i0 k.a) (b := l / supplyAt w k.lt * held w k.i1 k.a) (x := A) (y := B)
      (by positivity) (by positivity) hA hB hP0 hP1 (by rw [mul_left_comm, hP, mul_left_comm]) (by
        refine le_of_mul_le_mul_right ?_ (show (0 : ℚ) < (supplyAt w k.lt : ℚ) ^ 2 by positivity)
        refine le_trans (le_of_eq ?_) hle
        field_simp)
    linarith
  have s1 := share (l := x) (A := q0 + 1 + (held w1 k.i0 k.a : ℚ) / 10 ^ 18) (B := q1 + 1 + (held w1 k.i1 k.a : ℚ) / 10 ^ 18)
    (by positivity) (by positivity) (by positivity) (by
      refine le_of_mul_le_mul_right ?_ (show (0 : ℚ) < (10 ^ 18) ^ 2 by positivity)
      calc _ = _ := by ring
        _ ≤ _ := hv'
        _ = _ := by ring)
  have s2 := share (l := supplyAt w k.lt - x) (A := held w3 k.i0 k.a) (B := held w3 k.i1 k.a) (by linarith) (by positivity) (by positivity)
    ((mul_le_mul_of_nonneg_left (pow_le_pow_left₀ (by linarith) (show (supplyAt w k.lt : ℚ) - x ≤ supplyAt w3 k.lt by linarith) 2)
      (by positivity)).trans W)
  refine .inr (.inr ⟨q0, q1, a0, a1, s1, fun G0 G1 e0 e1 => ?_⟩)
  rw [sub_div, div_self hTq.ne', sub_mul, one_mul] at s2
  have g0 : P0 * G0 = P0 * held w k.i0 k.a - P0 * q0 - P0 * held w3 k.i0 k.a := by
    rw [show G0 = held w k.i0 k.a - q0 - held w3 k.i0 k.a by linarith]; ring
  have g1 : P1 * G1 = P1 * held w k.i1 k.a - P1 * q1 - P1 * held w3 k.i1 k.a := by
    rw [show G1 = held w k.i1 k.a - q1 - held w3 k.i1 k.a by linarith]; ring
  linarith

namespace Demo

theorem braced_reachable : Reachable chain braced :=
  .step _ _ (poised_reachable.later (later_runs struck_run)) (.tx _ _ _ _ _ _ isUser_user2 braced_run)
theorem sound_braced : siteAB.Sound chain braced :=
  sound_of (k := siteAB) (x := tA) (y := tB) (by decide +kernel) ⟨rfl, rfl, rfl⟩ rfl rfl (by decide +kernel) (by decide +kernel)
/-- `user` sells 1000 B before `user2` withdraws, and 500 A afterwards. -/
def parry : List CosmosMsg := [.exec tA (.send pAB 500 (.swap none none none)) []]
def parried : World := worldOf (runs parry wentHome)
theorem parried_run : runs parry wentHome = .ok parried := worldOf_eq (by decide +kernel)
theorem parry_calls : siteAB.calls chain (traces parry wentHome) = [(⟨10026, 20134, 14142⟩, .swap0 500)] := by decide +kernel
example := C139_no_attack_on_withdrawal lawful braced_reachable sound_braced (hist_runs settled_run)
  (by rw [settle_calls]; simp [First]) (by rw [settle_calls]; simp [Leak, Slip]) isUser_user2 wentHome_run (hist_runs parried_run)
  (by rw [parry_calls]; simp [First]) (by rw [parry_calls]; simp [Leak, Slip]) (by decide +kernel) (by decide +kernel)
  (by decide +kernel) (by decide +kernel) (P0 := 2105) (P1 := 1150) (by norm_num) (by norm_num)
  (by rw [show held braced siteAB.i0 siteAB.a = 11500 by decide +kernel, show held braced siteAB.i1 siteAB.a = 21050 by decide +kernel]
      norm_num)

end Demo
end Halo
