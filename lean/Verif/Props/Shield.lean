import Verif.Props.Sandwich
import Verif.Props.Jit
/-! # What an attack on a swap can gain at most (C140)

C113 bounds what others gain by surrounding a swap if they do not pay in any of the asset that is bought. Here they may do
what they like, gains are measured at the prices before the attack, and the swap is protected by a belief price and a maximum spread. -/

namespace Halo
open _root_.Halo.Spec CommuteL SandwichL

namespace ShieldL

/-- What the belief price and the maximum spread promise, in money. -/
theorem promised {v b p m u z E : Nat} {P Q : ℚ} (hp : p ≠ 0) (hz : z ≠ 0) (hQ : 0 ≤ Q) (hP : 0 ≤ P) (hE : E = v * u * 10 ^ 18 / p)
    (he : E * 10 ^ 18 ≤ b * z * 10 ^ 18 + (m + 1) * E) (hPQ : Q * (u * 10 ^ 18) = P * (p * z)) :
    P * v - Q * b ≤ P * v * ((m + 1) / 10 ^ 18) + Q := by
  have hpq : (0 : ℚ) < p := by exact_mod_cast Nat.pos_of_ne_zero hp
  have hzq : (1 : ℚ) ≤ z := by exact_mod_cast Nat.pos_of_ne_zero hz
  have h1 : v * u * 10 ^ 18 < (E + 1) * p := by
    rw [hE]
    exact Nat.lt_mul_of_div_lt (Nat.lt_succ_self _) (Nat.pos_of_ne_zero hp)
  have h2 : E * p ≤ v * u * 10 ^ 18 := by rw [hE]; exact Nat.div_mul_le_self _ _
  have h1q : (v : ℚ) * u * 10 ^ 18 ≤ (E + 1) * p := by exact_mod_cast h1.le
  have h2q : (E : ℚ) * p ≤ v * u * 10 ^ 18 := by exact_mod_cast h2
  have heq : (E : ℚ) * 10 ^ 18 ≤ b * z * 10 ^ 18 + (m + 1) * E := by exact_mod_cast he
  -- in money: `Q * E` is nearly `P * v * z`
  have g1 : P * v * z ≤ Q * (E + 1) := by
    refine le_of_mul_le_mul_right ?_ hpq
    have := mul_le_mul_of_nonneg_left h1q hQ
    calc P * v * z * p = v * (P * (p * z)) := by ring
      _ = Q * (v * u * 10 ^ 18) := by rw [← hPQ]; ring
      _ ≤ Q * ((E + 1) * p) := this
      _ = _ := by ring
  have g2 : Q * E ≤ P * v * z := by
    refine le_of_mul_le_mul_right ?_ hpq
    have := mul_le_mul_of_nonneg_left h2q hQ
    calc Q * E * p = Q * (E * p) := by ring
      _ ≤ Q * (v * u * 10 ^ 18) := this
      _ = v * (P * (p * z)) := by rw [← hPQ]; ring
      _ = _ := by ring
  have g3 : Q * E ≤ Q * b * z + Q * E * ((m + 1) / 10 ^ 18) := by
    have := mul_le_mul_of_nonneg_left heq hQ
    linarith
  have g4 : Q * E * ((m + 1) / 10 ^ 18) ≤ P * v * z * ((m + 1) / 10 ^ 18) := mul_le_mul_of_nonneg_right g2 (by positivity)
  have hzp : (0 : ℚ) < z := by linarith
  refine le_of_mul_le_mul_right ?_ hzp
  have g5 : Q ≤ Q * z := le_mul_of_one_le_right hQ hzq
  linarith

end ShieldL
open ShieldL

/-- **C140.** Others use a pair as they like, `S` swaps `v` of the token `t` at belief price `p` with maximum spread `m` for `b`, and
others use it as they like. If there are as many LP tokens in the end as in the beginning, then at the prices of the pool in the
beginning all others together (`G`, `H` is what left the pair on balance and not by `S`'s swap) have gained no more than what `S` lost.
If the belief price was that of the pool in the beginning, this is at most the fraction `m + 10^-18` of `v`, and one unit of the
asset bought. -/
theorem C140_no_attack_on_swap {c : Chain} (hc : c.Lawful) {w w1 w2 w3 : World} (hw : Reachable c w) {k : PairSite} (hk : k.Sound c w)
    {tr1 tr2 : List (World × Frame)} (h1 : Hist c w tr1 w1) (h3 : Hist c w2 tr2 w3)
    (f1 : ∀ e ∈ k.calls c tr1, ¬ First e) (n1 : ∀ e ∈ k.calls c tr1, ¬ Leak e)
    (f3 : ∀ e ∈ k.calls c tr2, ¬ First e) (n3 : ∀ e ∈ k.calls c tr2, ¬ Leak e)
    {t : Addr} {j : AssetInfo} (hd : k.Dir (.token t) j) {v p m : Nat} {adv : Adv} {gas : Nat} {S : Addr} (hS : c.IsUser S)
    {dst : Option Str} (hdst : dst ≠ some k.a)
    (h2 : runTx c adv gas w1 S (.exec t (.send k.a v (.swap (some p) (some m) dst)) []) = .ok w2)
    (n2 : held w2 (.token t) k.a ≤ 10 ^ 18 ∨ held w2 j k.a + 334 ≤ held w1 j k.a)
    (hT : supplyAt w k.lt ≠ 0) (hT1 : supplyAt w1 k.lt ≠ 0) (hTT : supplyAt w k.lt ≤ supplyAt w3 k.lt)
    {P Q : ℚ} (hP : 0 ≤ P) (hQ : 0 ≤ Q) (hPQ : P * held w (.token t) k.a = Q * held w j k.a) :
    k.Broken w1 ∨ k.Broken w3 ∨ ∃ b : Nat, held w2 j (dst.getD S) = held w1 j (dst.getD S) + b ∧
      ∀ G H : ℚ, (held w3 (.token t) k.a : ℚ) + G = held w (.token t) k.a + v → (held w3 j k.a : ℚ) + H + b = held w j k.a →
        P * G + Q * H ≤ P * v - Q * b ∧
        (Q * (10 ^ ((k.decimals (.token t)).2 - (k.decimals (.token t)).1) * 10 ^ 18) =
            P * (p * 10 ^ ((k.decimals (.token t)).1 - (k.decimals (.token t)).2)) →
          P * G + Q * H ≤ P * v * ((m + 1) / 10 ^ 18) + Q) := by
  rcases C22_no_leak_partial hc hw h1 hk f1 n1 with hbr | v1
  · exact .inl hbr
  rcases C21_constant_product hc hw h1 hk with hbr | ⟨hk1, _⟩
  · exact .inl hbr
  have hw1 := hw.later h1.later
  have hw2 : Reachable c w2 := .step _ _ hw1 (.tx _ _ _ _ _ _ hS h2)
  obtain ⟨_, _, _, _, hk2, _⟩ := swap_tx hc hw1 hk1 hd hS hdst h2
  have v2 := C01_swap_tx_partial hc hw1 hk1 hd hS hdst h2 n2
  obtain ⟨_, _, _, _, hkeep, _⟩ := swap_all hc hw1 hk1 hd hS h2
  have hT2 := supply_keep hkeep k.lt
  rcases C22_no_leak_partial hc hw2 h3 hk2 f3 n3 with hbr | v3
  · exact .inr (.inl hbr)
  obtain ⟨hp0, b, hb, hE⟩ := C11_swap_tx hc hw1 hk1 hd hS hdst h2
  refine .inr (.inr ⟨b, hb, fun G H eG eH => ?_⟩)
  have prod : ∀ x : World, held x (.token t) k.a * held x j k.a = held x k.i0 k.a * held x k.i1 k.a := by
    intro x
    rcases hd with ⟨h, h'⟩ | ⟨h, h'⟩
    · rw [h, h']
    · rw [h, h', Nat.mul_comm]
  simp only [PairSite.pool] at v1 v3
  rw [← prod, ← prod] at v1 v3
  have V1 : ((held w (.token t) k.a : ℚ) * held w j k.a) * (supplyAt w1 k.lt : ℚ) ^ 2 ≤
      (held w1 (.token t) k.a * held w1 j k.a) * (supplyAt w k.lt : ℚ) ^ 2 := by exact_mod_cast v1
  have V2 : ((held w1 (.token t) k.a : ℚ) * held w1 j k.a) * (supplyAt w2 k.lt : ℚ) ^ 2 ≤
      (held w2 (.token t) k.a * held w2 j k.a) * (supplyAt w1 k.lt : ℚ) ^ 2 := by
    rw [hT2]
    exact mul_le_mul_of_nonneg_right (by exact_mod_cast v2) (by positivity)
  have V3 : ((held w2 (.token t) k.a : ℚ) * held w2 j k.a) * (supplyAt w3 k.lt : ℚ) ^ 2 ≤
      (held w3 (.token t) k.a * held w3 j k.a) * (supplyAt w2 k.lt : ℚ) ^ 2 := by exact_mod_cast v3
  have hTq1 : (0 : ℚ) < supplyAt w1 k.lt := by exact_mod_cast Nat.pos_of_ne_zero hT1
  have W := SandwichL.chain (by rw [hT2]; exact hTq1) (SandwichL.chain hTq1 V1 V2) V3
  have hp : (held w (.token t) k.a : ℚ) * held w j k.a ≤ held w3 (.token t) k.a * held w3 j k.a := by
    have hq0 : (0 : ℚ) < supplyAt w k.lt := by exact_mod_cast Nat.pos_of_ne_zero hT
    have hq : (supplyAt w k.lt : ℚ) ≤ supplyAt w3 k.lt := by exact_mod_cast hTT
    refine le_of_mul_le_mul_right ?_ (show (0 : ℚ) < (supplyAt w k.lt : ℚ) ^ 2 by positivity)
    exact (mul_le_mul_of_nonneg_left (pow_le_pow_left₀ hq0.le hq 2) (by positivity)).trans W
  have hworth := dear (by positivity) (by positivity) (by positivity) (by positivity) hP hQ hPQ hp
  have g0 : P * G = P * held w (.token t) k.a + P * v - P * held w3 (.token t) k.a := by
    rw [show G = held w (.token t) k.a + v - held w3 (.token t) k.a by linarith]; ring
  have g1 : Q * H = Q * held w j k.a - Q * b - Q * held w3 j k.a := by
    rw [show H = held w j k.a - b - held w3 j k.a by linarith]; ring
  have hgain : P * G + Q * H ≤ P * v - Q * b := by linarith
  refine ⟨hgain, fun hbel => hgain.trans (promised (u := 10 ^ ((k.decimals (.token t)).2 - (k.decimals (.token t)).1))
    (z := 10 ^ ((k.decimals (.token t)).1 - (k.decimals (.token t)).2)) hp0 (by positivity) hQ hP rfl hE ?_)⟩
  push_cast
  exact hbel

namespace Demo

/-- `user` sells 500 A, `user2` sells 100 A at a belief price of half an A per B and a maximum spread of 15 %, `user` buys A back. -/
def guarded : CosmosMsg := .exec tA (.send pAB 100 (.swap (some (5 * 10 ^ 17)) (some (15 * 10 ^ 16)) none)) []
def shielded : World := worldOf (runTx chain idle 20 struck user2 guarded)
theorem shielded_run : runTx chain idle 20 struck user2 guarded = .ok shielded := worldOf_eq (by decide +kernel)
def spent900 : List CosmosMsg := [.exec tB (.send pAB 900 (.swap none none none)) []]
def subsided : World := worldOf (runs spent900 shielded)
theorem subsided_run : runs spent900 shielded = .ok subsided := worldOf_eq (by decide +kernel)
theorem subside_calls : siteAB.calls chain (traces spent900 shielded) = [(⟨10600, 18871, 14142⟩, .swap1 900)] := by decide +kernel
example := C140_no_attack_on_swap lawful poised_reachable sound_poised (hist_runs struck_run) (hist_runs subsided_run)
  (by rw [strike_calls]; simp [First]) (by rw [strike_calls]; simp [Leak, Slip]) (by rw [subside_calls]; simp [First])
  (by rw [subside_calls]; simp [Leak, Slip]) (t := tA) (j := .token tB) (.inl ⟨rfl, rfl⟩) isUser_user2 (by simp) shielded_run
  (.inl (by decide +kernel)) (by decide +kernel) (by decide +kernel) (by decide +kernel) (P := 2) (Q := 1) (by norm_num) (by norm_num)
  (by rw [show held poised (.token tA) siteAB.a = 10000 by decide +kernel, show held poised (.token tB) siteAB.a = 20000 by decide +kernel]
      norm_num)
/-- The belief price is that of the pool before the attack. -/
example : (1 : ℚ) * (10 ^ ((siteAB.decimals (.token tA)).2 - (siteAB.decimals (.token tA)).1) * 10 ^ 18) =
    2 * ((5 * 10 ^ 17 : Nat) * 10 ^ ((siteAB.decimals (.token tA)).1 - (siteAB.decimals (.token tA)).2)) := by
  rw [show siteAB.decimals (.token tA) = (6, 6) by decide +kernel]
  norm_num
/-- `user2` gets 179 B instead of 200; `user` has paid 19 A for 50 B on balance, a gain of 12 at two B per A. -/
example : held shielded (.token tB) user2 = held struck (.token tB) user2 + 179 ∧ siteAB.pool subsided = ⟨10000 + 100 + 19, 20000 - 179 - 50, 14142⟩ := by
  decide +kernel

end Demo
end Halo
