import Verif.Props.Refuge
import Verif.Props.Equal
/-! # Depositing again and again (C137)

C136 follows one deposit to its withdrawal. Here a provider makes any number of deposits, with anything happening between them, and
takes out everything at once. -/

namespace Halo
open _root_.Halo.Spec

/-- What a deposit may be divided by for rounding: the last LP token of `s` and the ratios of the reserves `p0`, `p1`. -/
def coarse (s p0 p1 : Nat) : ℚ := (((s : ℚ) + 1) / s) ^ 2 * (1 + 2 / 10 ^ 18 * max ((p0 : ℚ) / p1) ((p1 : ℚ) / p0))

/-- From the world `u` to the world `w`, user `S` deposited in the pair any number of times, each time with a slippage tolerance, and
got `x` LP tokens in all. Of a deposit of `d0`, `d1` with tolerance `t` at most `sqrt ((1-t)*d0*d1)` is counted, less rounding,
and `g` is what was counted. Before, between and after, anything happened, starting with LP tokens outstanding, but first deposits,
leaking swaps and a replacement of code. -/
inductive Saving (c : Chain) (k : PairSite) (S : Addr) (u : World) : World → Nat → ℚ → Prop where
  | start : Saving c k S u u 0 0
  | wait {w w' : World} {x : Nat} {g : ℚ} {tr : List (World × Frame)} (h : Saving c k S u w x g)
      (hT : supplyAt w k.lt ≠ 0) (hl : Hist c w tr w')
      (hf : ∀ e ∈ k.calls c tr, ¬ First e) (hn : ∀ e ∈ k.calls c tr, ¬ Leak e) (hb : ¬ k.Broken w') : Saving c k S u w' x g
  | deposit {w w' : World} {x : Nat} {g : ℚ} {adv : Adv} {gas : Nat} {assets : Asset × Asset} {t d0 d1 s : Nat} {funds : List Coin}
      {y : ℚ} (h : Saving c k S u w x g) (hT : supplyAt w k.lt ≠ 0)
      (hx : runTx c adv gas w S (.exec k.a (.provideLiquidity assets (some t) none) funds) = .ok w')
      (hs : held w' (.token k.lt) S = held w (.token k.lt) S + s) (hd : Names k assets d0 d1) (hy : 0 ≤ y)
      (hle : y ^ 2 * coarse s (held w k.i0 k.a) (held w k.i1 k.a) ≤ (1 - t / 10 ^ 18) * (d0 * d1 : ℚ)) :
      Saving c k S u w' (x + s) (g + y)

namespace SavingsL

/-- What `x` LP tokens are worth, by the product, grows with what an LP token is worth. -/
theorem kept {g x P T P' T' : ℚ} (hT : 0 < T) (h : g ^ 2 * T ^ 2 ≤ x ^ 2 * P) (hv : P * T' ^ 2 ≤ P' * T ^ 2) :
    g ^ 2 * T' ^ 2 ≤ x ^ 2 * P' := by
  refine le_of_mul_le_mul_right ?_ (show 0 < T ^ 2 by positivity)
  have a := mul_le_mul_of_nonneg_right h (sq_nonneg T')
  have b := mul_le_mul_of_nonneg_left hv (sq_nonneg x)
  linarith

/-- The roots add up. -/
theorem joined {g y x s P T : ℚ} (hg : 0 ≤ g) (hy : 0 ≤ y) (hx : 0 ≤ x) (hs : 0 ≤ s) (hP : 0 ≤ P) (h : g ^ 2 * T ^ 2 ≤ x ^ 2 * P)
    (h' : y ^ 2 * T ^ 2 ≤ s ^ 2 * P) : (g + y) ^ 2 * T ^ 2 ≤ (x + s) ^ 2 * P := by
  have hm : g * y * T ^ 2 ≤ x * s * P := by
    refine (pow_le_pow_iff_left₀ (by positivity) (by positivity) (n := 2) (by norm_num)).mp ?_
    have := mul_le_mul h h' (by positivity) (by positivity)
    linarith
  linarith

end SavingsL

open SavingsL RefugeL

theorem coarse_pos {s p0 p1 : Nat} (hs : s ≠ 0) : 0 < coarse s p0 p1 := by
  have h1 : (0 : ℚ) < s := by exact_mod_cast Nat.pos_of_ne_zero hs
  have h2 : (0 : ℚ) ≤ max ((p0 : ℚ) / p1) ((p1 : ℚ) / p0) := le_max_of_le_left (by positivity)
  unfold coarse
  positivity

/-- What has been saved is there at any time. -/
theorem Saving.kept {c : Chain} (hc : c.Lawful) {k : PairSite} {S : Addr} {u : World} (hu : Reachable c u) (hk : k.Sound c u)
    (hS : c.IsUser S) {w : World} {x : Nat} {g : ℚ} (h : Saving c k S u w x g) : Reachable c w ∧ k.Sound c w ∧ 0 ≤ g ∧
      g ^ 2 * (supplyAt w k.lt : ℚ) ^ 2 ≤ (x : ℚ) ^ 2 * (held w k.i0 k.a * held w k.i1 k.a) := by
  induction h with
  | start => exact ⟨hu, hk, le_refl _, by simp⟩
  | wait h hT hl hf hn hb ih =>
    obtain ⟨hw, hkw, hg, hi⟩ := ih
    rcases C22_no_leak_partial hc hw hl hkw hf hn with h' | hv
    · exact absurd h' hb
    rcases C21_constant_product hc hw hl hkw with h' | ⟨hk', _⟩
    · exact absurd h' hb
    refine ⟨hw.later hl.later, hk', hg, SavingsL.kept (by exact_mod_cast Nat.pos_of_ne_zero hT) hi ?_⟩
    simp only [PairSite.pool] at hv
    exact_mod_cast hv
  | @deposit w w' x g adv gas assets t d0 d1 s funds y h hT hx hs hd hy hle ih =>
    obtain ⟨hw, hkw, hg, hi⟩ := ih
    obtain ⟨hk', e0, e1, he, _, _, _, hK⟩ := entered hc hw hkw hS hx hs
    obtain ⟨rfl, rfl⟩ := he.uniq hkw.ne hd
    have hw' : Reachable c w' := .step _ _ hw (.tx _ _ _ _ _ _ hS hx)
    obtain ⟨⟨b0, b1⟩, _⟩ := C15_deposit_tx hc hw hkw hS hx hT
    obtain ⟨_, _, s', _, hpos, _, _, _, _, hdep⟩ := deposit_tx hc hw hkw hS hx
    have es : s' = s := by
      have := hdep.lp
      simp only [Option.getD_none] at this
      omega
    subst es
    have hT' : (0 : ℚ) < supplyAt w' k.lt := by
      rw [hdep.supply]
      exact_mod_cast Nat.add_pos_right _ (Nat.pos_of_ne_zero hpos)
    have hold := SavingsL.kept (P' := (held w' k.i0 k.a : ℚ) * held w' k.i1 k.a) (T' := supplyAt w' k.lt)
      (by exact_mod_cast Nat.pos_of_ne_zero hT) hi (by
        have := Nat.mul_le_mul b0 b1
        have q : ((held w k.i0 k.a * supplyAt w' k.lt * (held w k.i1 k.a * supplyAt w' k.lt) : Nat) : ℚ) ≤
          ((held w' k.i0 k.a * supplyAt w k.lt * (held w' k.i1 k.a * supplyAt w k.lt) : Nat) : ℚ) := by exact_mod_cast this
        push_cast at q
        linarith)
    have hnew : y ^ 2 * (supplyAt w' k.lt : ℚ) ^ 2 ≤ (s' : ℚ) ^ 2 * (held w' k.i0 k.a * held w' k.i1 k.a) := by
      have h1 := hK ((held w' k.i0 k.a : ℚ) * held w' k.i1 k.a * s' ^ 2 / supplyAt w' k.lt ^ 2) (by positivity)
        (by rw [div_mul_cancel₀ _ (by positivity)])
      have h2 := hle.trans h1
      have h3 := coarse_pos (p0 := held w k.i0 k.a) (p1 := held w k.i1 k.a) hpos
      rw [mul_comm (y ^ 2)] at h2
      have h4 := le_of_mul_le_mul_left h2 h3
      rw [le_div_iff₀ (by positivity)] at h4
      linarith
    refine ⟨hw', hk', add_nonneg hg hy, ?_⟩
    push_cast
    exact joined hg hy (by positivity) (by positivity) (by positivity) hold hnew

/-- **C137.** A user who saves in a pair, with a slippage tolerance each time, and then takes out all the LP tokens they got gets
amounts `q0`, `q1` whose geometric mean is at least the sum of what was counted of the deposits, up to one unit and `1/10^18` of the
reserve each. -/
theorem C137_savings {c : Chain} (hc : c.Lawful) {k : PairSite} {S : Addr} {u : World} (hu : Reachable c u) (hk : k.Sound c u)
    (hS : c.IsUser S) {w w' : World} {x : Nat} {g : ℚ} (h : Saving c k S u w x g) {adv : Adv} {gas : Nat}
    (hx : runTx c adv gas w S (.exec k.lt (.send k.a x .withdrawLiquidity) []) = .ok w') :
    ∃ q0 q1 : Nat, held w' k.i0 S = held w k.i0 S + q0 ∧ held w' k.i1 S = held w k.i1 S + q1 ∧
      g ^ 2 ≤ (q0 + 1 + (held w k.i0 k.a : ℚ) / 10 ^ 18) * (q1 + 1 + (held w k.i1 k.a : ℚ) / 10 ^ 18) := by
  obtain ⟨hw, hkw, hg, hi⟩ := h.kept hc hu hk hS
  have hT := (withdraw_tx hc hw hkw hS hx).1
  obtain ⟨q0, q1, hwd, _, _, _, b0, _, b1⟩ := C16_withdraw_tx hc hw hkw hS hx
  refine ⟨q0, q1, hwd.user0, hwd.user1, ?_⟩
  have hTq : (0 : ℚ) < supplyAt w k.lt := by exact_mod_cast Nat.pos_of_ne_zero hT
  have hp := paid (a := held w k.i0 k.a) (b := held w k.i1 k.a) (A := held w k.i0 k.a) (B := held w k.i1 k.a) (s := x) (q := q0)
    (q' := q1) (l := 1) (T := supplyAt w k.lt) (by positivity) (by positivity) (by positivity) hTq one_pos (by linarith)
    (by exact_mod_cast b0.le) (by exact_mod_cast b1.le)
  rw [div_one] at hp
  refine le_of_mul_le_mul_right ?_ (show (0 : ℚ) < (supplyAt w k.lt : ℚ) ^ 2 by positivity)
  linarith

/-- **C137.** In money: at any prices, the square of what comes back is worth at least four times the product of the prices times
`g^2`; for deposits whose halves were all worth the same at these prices and rounding aside, what comes back is worth at least the
sum of `sqrt (1-t)` times what each deposit was worth. -/
theorem C137_worth {c : Chain} (hc : c.Lawful) {k : PairSite} {S : Addr} {u : World} (hu : Reachable c u) (hk : k.Sound c u)
    (hS : c.IsUser S) {w w' : World} {x : Nat} {g : ℚ} (h : Saving c k S u w x g) {adv : Adv} {gas : Nat}
    (hx : runTx c adv gas w S (.exec k.lt (.send k.a x .withdrawLiquidity) []) = .ok w') :
    ∃ q0 q1 : Nat, held w' k.i0 S = held w k.i0 S + q0 ∧ held w' k.i1 S = held w k.i1 S + q1 ∧
      ∀ P0 P1 : ℚ, 0 ≤ P0 → 0 ≤ P1 → 4 * (P0 * P1) * g ^ 2 ≤
        (P0 * (q0 + 1 + (held w k.i0 k.a : ℚ) / 10 ^ 18) + P1 * (q1 + 1 + (held w k.i1 k.a : ℚ) / 10 ^ 18)) ^ 2 := by
  obtain ⟨q0, q1, e0, e1, h3⟩ := C137_savings hc hu hk hS h hx
  refine ⟨q0, q1, e0, e1, fun P0 P1 h0 h1 => ?_⟩
  have h4 := mul_le_mul_of_nonneg_left h3 (show 0 ≤ 4 * (P0 * P1) by positivity)
  generalize (q0 + 1 + (held w k.i0 k.a : ℚ) / 10 ^ 18) = a at h4 ⊢
  generalize (q1 + 1 + (held w k.i1 k.a : ℚ) / 10 ^ 18) = b at h4 ⊢
  nlinarith [sq_nonneg (P0 * a - P1 * b)]

namespace Demo

/-- `user2` deposits as in `sheltered`, and once more after `user` has moved the price back. -/
def again : World := worldOf (runTx chain idle 20 rebounded user2
  (.exec pAB (.provideLiquidity (⟨.token tA, 1000⟩, ⟨.token tB, 2000⟩) (some (10 ^ 17)) none) []))
theorem again_run : runTx chain idle 20 rebounded user2
    (.exec pAB (.provideLiquidity (⟨.token tA, 1000⟩, ⟨.token tB, 2000⟩) (some (10 ^ 17)) none) []) = .ok again :=
  worldOf_eq (by decide +kernel)

private theorem rebounded_whole : ¬ siteAB.Broken rebounded := by
  have h0 : (match rebounded.contracts pAB with | some ⟨_, .pair _⟩ => true | _ => false) = true := by decide +kernel
  have hA : (match rebounded.contracts tA with | some ⟨_, .token _⟩ => true | _ => false) = true := by decide +kernel
  have hB : (match rebounded.contracts tB with | some ⟨_, .token _⟩ => true | _ => false) = true := by decide +kernel
  rintro (⟨adm, h⟩ | ⟨t, adm, h1, h⟩)
  · rw [show siteAB.a = pAB from rfl] at h
    rw [h] at h0
    cases h0
  · rcases h1 with h1 | h1 <;> cases h1
    · rw [h] at hA
      cases hA
    · rw [h] at hB
      cases hB

/-- 1340 is counted of each deposit: `sqrt (0.9*1000*2000)` is 1341.6. -/
theorem saved : Saving chain siteAB user2 nudged again (0 + 1346 + 1404) (0 + 1340 + 1340) := by
  refine .deposit (.wait (.deposit .start (by decide +kernel) sheltered_run (by decide +kernel) (d0 := 1000) (d1 := 2000)
    (.inl rfl) (by norm_num) ?_) (by decide +kernel) (hist_runs rebounded_run) (by rw [rebound_calls]; simp [First])
    (by rw [rebound_calls]; simp [Leak, Slip]) rebounded_whole) (by decide +kernel) again_run (by decide +kernel) (d0 := 1000)
    (d1 := 2000) (.inl rfl) (by norm_num) ?_
  · rw [show held nudged siteAB.i0 siteAB.a = 10500 by decide +kernel, show held nudged siteAB.i1 siteAB.a = 19050 by decide +kernel]
    norm_num [coarse]
  · rw [show held rebounded siteAB.i0 siteAB.a = 10980 by decide +kernel,
      show held rebounded siteAB.i1 siteAB.a = 22050 by decide +kernel]
    norm_num [coarse]

def drawn : World := worldOf (runTx chain idle 20 again user2 (.exec lpAB (.send pAB 2750 .withdrawLiquidity) []))
theorem drawn_run : runTx chain idle 20 again user2 (.exec lpAB (.send pAB 2750 .withdrawLiquidity) []) = .ok drawn :=
  worldOf_eq (by decide +kernel)
example := C137_savings lawful nudged_reachable sound_nudged isUser_user2 saved drawn_run
example := C137_worth lawful nudged_reachable sound_nudged isUser_user2 saved drawn_run
/-- 1950 A and 3915 B come back for two deposits of 1000 A and 2000 B. -/
example : held drawn (.token tA) user2 = held again (.token tA) user2 + 1950 ∧
    held drawn (.token tB) user2 = held again (.token tB) user2 + 3915 := by decide +kernel

end Demo
end Halo
