import Verif.Props.Fees
import Mathlib.Algebra.Order.Field.Basic
import Verif.Props.ZeroSum
/-! # C130: what trading earns the providers, with deposits and withdrawals in between -/

namespace Halo
open _root_.Halo.Spec

/-- The factor by which the requests raise the value of a share at least: for every swap one plus what the commission adds to the product of the reserves
(`callGain`, C70) relative to that product. -/
def growth (cs : List (Pool × Call)) : ℚ := (cs.map fun e => 1 + (callGain e : ℚ) / (e.1.r0 * e.1.r1)).prod

namespace EarnL

/-- The value of a share is multiplied by at least `r`. -/
def GrowBy (r : ℚ) (p q : Pool) : Prop := (p.r0 : ℚ) * p.r1 * q.supply ^ 2 * r ≤ q.r0 * q.r1 * p.supply ^ 2

theorem GrowBy.trans {r s : ℚ} {p b q : Pool} (hs : 0 ≤ s) (hb : b.supply ≠ 0) (h1 : GrowBy r p b) (h2 : GrowBy s b q) :
    GrowBy (r * s) p q := by
  unfold GrowBy at *
  have hb' : (0 : ℚ) < (b.supply : ℚ) ^ 2 := by positivity
  refine le_of_mul_le_mul_right ?_ hb'
  calc (p.r0 : ℚ) * p.r1 * q.supply ^ 2 * (r * s) * b.supply ^ 2 = p.r0 * p.r1 * b.supply ^ 2 * r * (q.supply ^ 2 * s) := by ring
    _ ≤ b.r0 * b.r1 * p.supply ^ 2 * (q.supply ^ 2 * s) := mul_le_mul_of_nonneg_right h1 (by positivity)
    _ = b.r0 * b.r1 * q.supply ^ 2 * s * p.supply ^ 2 := by ring
    _ ≤ q.r0 * q.r1 * b.supply ^ 2 * p.supply ^ 2 := mul_le_mul_of_nonneg_right h2 (by positivity)
    _ = q.r0 * q.r1 * p.supply ^ 2 * b.supply ^ 2 := by ring

theorem of_noLoss {p q : Pool} (h : p.NoLoss q) : GrowBy 1 p q := by
  unfold GrowBy
  unfold Pool.NoLoss at h
  rw [mul_one]
  exact_mod_cast h

theorem swap_gain {o a x : Nat} (ho : o ≠ 0) (hl : ¬ Slip o a x) : o * a + feeGain o a x ≤ (o + x) * (a - payout o a x) := by
  by_cases hd : gross o a x < 334 ∧ 10 ^ 18 < o + x
  · have h0 : feeGain o a x = 0 := by
      unfold feeGain
      rw [Nat.div_eq_of_lt (by omega : 3 * gross o a x < 1000), Nat.zero_mul, Nat.zero_sub]
    rw [h0]
    exact Nat.le_of_not_lt fun hlt => hl ((payout_slip ho).mp hlt)
  · exact payout_gain ho hd

theorem act_grow {l : Call} {p q : Pool} (h : Act l p q) (hS : p.supply ≠ 0) (hl : ¬ Leak (p, l)) :
    GrowBy (1 + (callGain (p, l) : ℚ) / (p.r0 * p.r1)) p q := by
  have scale : ∀ {g T : Nat} {a b c d : ℚ}, 0 ≤ a * b → a * b + g ≤ c * d → a * b * (T : ℚ) ^ 2 * (1 + (g : ℚ) / (a * b)) ≤ c * d * (T : ℚ) ^ 2 := by
    intro g T a b c d h0 h1
    rcases h0.eq_or_lt with h | h
    · rw [← h] at h1 ⊢
      have : (0 : ℚ) ≤ g := Nat.cast_nonneg _
      simp only [zero_mul]
      exact mul_nonneg (by linarith) (by positivity)
    · calc a * b * (T : ℚ) ^ 2 * (1 + (g : ℚ) / (a * b)) = (a * b + g * (a * b / (a * b))) * (T : ℚ) ^ 2 := by ring
        _ = (a * b + g) * (T : ℚ) ^ 2 := by rw [div_self h.ne', mul_one]
        _ ≤ _ := mul_le_mul_of_nonneg_right h1 (by positivity)
  have same : callGain (p, l) = 0 → GrowBy (1 + (callGain (p, l) : ℚ) / (p.r0 * p.r1)) p q := by
    intro e
    rw [e, Nat.cast_zero, zero_div, add_zero]
    exact of_noLoss (noLoss_of_noLeak h hS hl)
  cases h with
  | swap0 _ x ho h =>
    refine scale (by positivity) ?_
    simp only [callGain]
    exact_mod_cast swap_gain ho hl
  | swap1 _ x ho h =>
    refine scale (by positivity) ?_
    simp only [callGain]
    have := swap_gain ho hl
    rw [Nat.mul_comm p.r1, Nat.mul_comm (p.r1 + x)] at this
    exact_mod_cast this
  | init | deposit | withdraw => exact same rfl

theorem one_le (e : Pool × Call) : (1 : ℚ) ≤ 1 + (callGain e : ℚ) / (e.1.r0 * e.1.r1) := by
  have : (0 : ℚ) ≤ (callGain e : ℚ) / (e.1.r0 * e.1.r1) := by positivity
  linarith

theorem growth_cons (e : Pool × Call) (cs : List (Pool × Call)) : growth (e :: cs) = (1 + (callGain e : ℚ) / (e.1.r0 * e.1.r1)) * growth cs := by
  simp [growth]

theorem one_le_growth : ∀ cs, 1 ≤ growth cs
  | [] => by simp [growth]
  | e :: cs => by
    rw [growth_cons]
    exact one_le_mul_of_one_le_of_one_le (one_le e) (one_le_growth cs)

theorem sum_le_growth : ∀ cs, 1 + (cs.map fun e : Pool × Call => (callGain e : ℚ) / (e.1.r0 * e.1.r1)).sum ≤ growth cs
  | [] => by simp [growth]
  | e :: cs => by
    rw [growth_cons, List.map_cons, List.sum_cons]
    have h0 : (0 : ℚ) ≤ (callGain e : ℚ) / (e.1.r0 * e.1.r1) := by positivity
    have h1 := sum_le_growth cs
    have h2 := one_le_growth cs
    nlinarith

theorem path_grow {p q : Pool} {cs : List (Pool × Call)} (h : Path p cs q) (hf : ∀ e ∈ cs, ¬ First e)
    (hn : ∀ e ∈ cs, ¬ Leak e) : GrowBy (growth cs) p q := by
  induction h with
  | done _ _ h => simpa [growth] using of_noLoss h.noLoss
  | call p b q r l rest h1 h2 h3 ih =>
    have hf' : ∀ e ∈ rest, ¬ First e := fun e he => hf e (List.mem_cons_of_mem _ he)
    have ih := ih hf' fun e he => hn e (List.mem_cons_of_mem _ he)
    have zero : q.supply = 0 → ∀ g, GrowBy g p r := by
      intro hq g
      have := h3.none hf' hq
      unfold GrowBy
      rw [this, Nat.cast_zero, zero_pow (by decide), mul_zero, zero_mul]
      positivity
    by_cases hq : q.supply = 0
    · exact zero hq _
    by_cases hb : b.supply = 0
    · refine zero ?_ _
      have hf := hf (b, l) List.mem_cons_self
      cases h2 with
      | swap0 | swap1 => exact hb
      | init => exact absurd hb hf
      | deposit _ _ _ _ h0 => exact absurd hb h0
      | withdraw _ s hs => simp only; omega
    · rw [growth_cons]
      have := (of_noLoss h1.noLoss).trans (zero_le_one.trans (one_le (b, l))) hb (act_grow h2 hb (hn _ List.mem_cons_self))
      rw [one_mul] at this
      exact this.trans (zero_le_one.trans (one_le_growth rest)) hq ih

/-- What a pool is worth at the least, at any prices, if the value of a share is multiplied by at least `g`. -/
theorem worth_of {r0 r1 T r0' r1' T' P0 P1 g L : ℚ} (h0 : 0 ≤ P0) (h1 : 0 ≤ P1) (hT : 0 ≤ T) (n0 : 0 ≤ r0') (n1 : 0 ≤ r1')
    (h : r0 * r1 * T' ^ 2 * g ≤ r0' * r1' * T ^ 2) (hL : L ^ 2 ≤ 4 * (P0 * r0) * (P1 * r1) * g) : L * T' ≤ (P0 * r0' + P1 * r1') * T := by
  by_contra hcon
  rw [not_le] at hcon
  have a0 : ((P0 * r0' + P1 * r1') * T) ^ 2 < (L * T') ^ 2 := pow_lt_pow_left₀ hcon (by positivity) (by decide)
  have a1 : (L * T') ^ 2 ≤ 4 * (P0 * r0) * (P1 * r1) * g * T' ^ 2 := by
    rw [mul_pow]
    exact mul_le_mul_of_nonneg_right hL (sq_nonneg _)
  have a2 : 4 * P0 * P1 * (r0 * r1 * T' ^ 2 * g) ≤ 4 * P0 * P1 * (r0' * r1' * T ^ 2) := mul_le_mul_of_nonneg_left h (by positivity)
  have a3 : 4 * P0 * P1 * (r0' * r1' * T ^ 2) ≤ ((P0 * r0' + P1 * r1') * T) ^ 2 := by
    have : 0 ≤ ((P0 * r0' - P1 * r1') * T) ^ 2 := sq_nonneg _
    nlinarith
  have e : 4 * (P0 * r0) * (P1 * r1) * g * T' ^ 2 = 4 * P0 * P1 * (r0 * r1 * T' ^ 2 * g) := by ring
  linarith

end EarnL
open EarnL ZeroL

/-- **C130.** Over any history without first deposits and leaking swaps, with any swaps, deposits, withdrawals and gifts by anybody, the value of a share (the product of the
reserves over the square of the LP supply) is multiplied by at least `growth`: every swap multiplies it by at least one plus its commission, times
the new offer reserve, over the product of the reserves. Nobody who deposits or withdraws in between takes any of that. -/
theorem C130_growth {c : Chain} (hc : c.Lawful) {w w' : World} (hw : Reachable c w) {tr : List (World × Frame)} (hl : Hist c w tr w')
    {k : PairSite} (hk : k.Sound c w) (hf : ∀ e ∈ k.calls c tr, ¬ First e) (hn : ∀ e ∈ k.calls c tr, ¬ Leak e) :
    k.Broken w' ∨ (held w k.i0 k.a : ℚ) * held w k.i1 k.a * supplyAt w' k.lt ^ 2 * growth (k.calls c tr) ≤
      held w' k.i0 k.a * held w' k.i1 k.a * supplyAt w k.lt ^ 2 := by
  rcases C21_constant_product hc hw hl hk with h | ⟨_, h⟩
  · exact .inl h
  · have h := path_grow h hf hn
    simp only [GrowBy, PairSite.pool] at h
    exact .inr h

/-- **C130.** In particular it grows by at least the sum of these fractions. -/
theorem C130_sum {c : Chain} (hc : c.Lawful) {w w' : World} (hw : Reachable c w) {tr : List (World × Frame)} (hl : Hist c w tr w')
    {k : PairSite} (hk : k.Sound c w) (hf : ∀ e ∈ k.calls c tr, ¬ First e) (hn : ∀ e ∈ k.calls c tr, ¬ Leak e) :
    k.Broken w' ∨ (held w k.i0 k.a : ℚ) * held w k.i1 k.a * supplyAt w' k.lt ^ 2 *
        (1 + ((k.calls c tr).map fun e => (callGain e : ℚ) / (e.1.r0 * e.1.r1)).sum) ≤
      held w' k.i0 k.a * held w' k.i1 k.a * supplyAt w k.lt ^ 2 :=
  (C130_growth hc hw hl hk hf hn).imp id fun h => (mul_le_mul_of_nonneg_left (sum_le_growth _) (by positivity)).trans h

/-- **C130.** At any prices, the reserves behind an LP token are worth afterwards at least `2 √(P x · Q y · growth)` per LP token before. So
the fees have made up for what the move of the price has cost the providers (impermanent loss, C97) as soon as `growth` is `(P x + Q y)² / (4 P x Q y)`: then
an LP token is worth at least as much as the reserves that were behind it before would be worth. -/
theorem C130_fees_against_loss {c : Chain} (hc : c.Lawful) {w w' : World} (hw : Reachable c w) {tr : List (World × Frame)} (hl : Hist c w tr w')
    {k : PairSite} (hk : k.Sound c w) (hf : ∀ e ∈ k.calls c tr, ¬ First e) (hn : ∀ e ∈ k.calls c tr, ¬ Leak e) {price : AssetInfo → Nat} {L : ℚ}
    (hL : L ^ 2 ≤ 4 * (price k.i0 * held w k.i0 k.a) * (price k.i1 * held w k.i1 k.a) * growth (k.calls c tr)) :
    k.Broken w' ∨ L * supplyAt w' k.lt ≤ vault price w' k * supplyAt w k.lt :=
  (C130_growth hc hw hl hk hf hn).imp id fun h =>
    worth_of (Nat.cast_nonneg _) (Nat.cast_nonneg _) (Nat.cast_nonneg _) (Nat.cast_nonneg _) (Nat.cast_nonneg _) h hL

/-- **C130.** What is left, at any prices, to somebody who does nothing, with any number of pairs: their tokens, and their part of `2 √(P x · Q y · growth)` for every
pool. -/
theorem C130_sleeper {c : Chain} (hc : c.Lawful) {w w' : World} (hw : Reachable c w) {tr : List (World × Frame)}
    (hl : Hist c w tr w') {ts : List Addr} {ks : List PairSite} {U : Addr} (hU : ∀ e ∈ tr, e.2.actor ≠ U)
    (hs : ∀ t ∈ ts ++ ks.map PairSite.lt, Careful w U t) (hk : ∀ k ∈ ks, k.Sound c w)
    (hn : ∀ k ∈ ks, ∀ e ∈ k.calls c tr, ¬ Leak e) (price : AssetInfo → Nat) {L : PairSite → ℚ}
    (hp : ∀ k ∈ ks, L k ^ 2 ≤ 4 * (price k.i0 * held w k.i0 k.a) * (price k.i1 * held w k.i1 k.a) * growth (k.calls c tr)) :
    (∃ t ∈ ts ++ ks.map PairSite.lt, ∃ a adm, w'.contracts a = some ⟨adm, .other⟩ ∧ (a = t ∨ Allows w U t a)) ∨
    (∃ k ∈ ks, k.Broken w') ∨
    (ts.map fun t => (price (.token t) * held w (.token t) U : ℚ)).sum +
      (ks.map fun k => (held w (.token k.lt) U : ℚ) / supplyAt w k.lt * L k).sum ≤ worthOf price ts ks U w' :=
  sleeper hc hw hl hU hs price fun k hk' hf => C130_fees_against_loss hc hw hl (hk k hk') hf (hn k hk') (hp k hk')

/-! ### Cases that meet the hypotheses -/

namespace Demo

/-- A swap, a deposit and a withdrawal: the first multiplies the value of a share by 1.000275. -/
example : growth (siteAB.calls chain (traces nightly night)) = 40011 / 40000 := by rw [nightly_calls]; decide +kernel

private theorem nightly_quiet : (∀ e ∈ siteAB.calls chain (traces nightly night), ¬ First e) ∧
    ∀ e ∈ siteAB.calls chain (traces nightly night), ¬ Leak e := by
  rw [nightly_calls]
  exact ⟨by simp [First], by simp [Leak]; decide +kernel⟩

example := C130_growth lawful night_reachable (hist_runs morning_run) sound_night nightly_quiet.1 nightly_quiet.2
example := C130_sum lawful night_reachable (hist_runs morning_run) sound_night nightly_quiet.1 nightly_quiet.2

/-- Prices one percent off those of the pool: the fees have made up for it. -/
private def off (i : AssetInfo) : Nat := if i = .token tA then 200 else 101

private theorem made_up : (4020000 : ℚ) ^ 2 ≤ 4 * (off siteAB.i0 * held night siteAB.i0 siteAB.a) * (off siteAB.i1 * held night siteAB.i1 siteAB.a) *
    growth (siteAB.calls chain (traces nightly night)) := by rw [nightly_calls]; decide +kernel

example := C130_fees_against_loss lawful night_reachable (hist_runs morning_run) sound_night nightly_quiet.1 nightly_quiet.2 made_up
example : vault off night siteAB = 4020000 := by decide +kernel

example := C130_sleeper lawful night_reachable (hist_runs morning_run) (ts := []) (ks := [siteAB]) (U := user2) asleep
  (fun t ht => by
    obtain rfl : t = siteAB.lt := by simpa using ht
    exact careful_of (by decide +kernel))
  (fun k hk => by rw [List.mem_singleton.mp hk]; exact sound_night) (fun k hk => by rw [List.mem_singleton.mp hk]; exact nightly_quiet.2)
  off (L := fun _ => 4020000) (fun k hk => by rw [List.mem_singleton.mp hk]; exact made_up)

end Demo

end Halo
