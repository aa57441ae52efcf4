import Verif.Props.Swap
import Verif.Props.Pool
/-! # When exactly a swap lowers the product of the reserves (C01), the value of a share (C22) or its backing (C20) -/

namespace Halo
open _root_.Halo.Spec

/-- The gross output, through the remainder of the division. -/
theorem gross_rest {o a x : Nat} (ho : o ≠ 0) :
    (o * a % (o + x) * DF < o + x ∧ a = grossOf o a x + o * a / (o + x)) ∨
    (o + x ≤ o * a % (o + x) * DF ∧ a = grossOf o a x + o * a / (o + x) + 1) := by
  have hS : 0 < o + x := by omega
  have hD : 0 < DF := DF_pos
  have hP := Nat.div_add_mod (o * a) (o + x)
  have hf : o * a % (o + x) < o + x := Nat.mod_lt _ hS
  have hpa : o * a / (o + x) ≤ a := by
    refine Nat.div_le_of_le_mul ?_
    rw [Nat.add_mul]; omega
  have hpa2 : o * a % (o + x) ≠ 0 → o * a / (o + x) < a := by
    intro h
    refine lt_of_le_of_ne hpa fun e => ?_
    rw [e, Nat.add_mul] at hP
    omega
  unfold grossOf
  generalize o * a / (o + x) = p at *
  generalize o * a % (o + x) = f at *
  have hq : o * a * DF / (o + x) = p * DF + f * DF / (o + x) := by
    rw [← hP, show ((o + x) * p + f) * DF = f * DF + (o + x) * (p * DF) by ring, Nat.add_mul_div_left _ _ hS, Nat.add_comm]
  rw [hq]
  by_cases hlt : f * DF < o + x
  · left
    refine ⟨hlt, ?_⟩
    rw [Nat.div_eq_of_lt hlt, Nat.add_zero, ← Nat.sub_mul, Nat.mul_div_cancel _ hD]
    omega
  · right
    refine ⟨by omega, ?_⟩
    have hf0 : f ≠ 0 := by rintro rfl; simp at hlt; omega
    have hk0 : 1 ≤ f * DF / (o + x) := (Nat.one_le_div_iff hS).mpr (by omega)
    have hk1 : f * DF / (o + x) < DF := by
      refine Nat.div_lt_of_lt_mul ?_
      exact Nat.mul_lt_mul_of_pos_right hf hD
    generalize f * DF / (o + x) = k at *
    have hpa := hpa2 hf0
    obtain ⟨d, rfl⟩ := Nat.exists_eq_add_of_lt hpa
    have : ((p + d + 1) * DF - (p * DF + k)) / DF = d := by
      have e : (p + d + 1) * DF - (p * DF + k) = (DF - k) + d * DF := by
        rw [show (p + d + 1) * DF = p * DF + d * DF + DF by ring]
        omega
      rw [e, Nat.add_mul_div_right _ _ hD, Nat.div_eq_of_lt (by omega), Nat.zero_add]
    omega

/-- When exactly a swap lowers the product. -/
theorem product_falls_iff {o a x : Nat} (ho : o ≠ 0) :
    (o + x) * (a - (grossOf o a x - 3 * grossOf o a x / 1000)) < o * a ↔
      grossOf o a x < 334 ∧ 0 < o * a % (o + x) ∧ o * a % (o + x) * DF < o + x := by
  have hP := Nat.div_add_mod (o * a) (o + x)
  have hf : o * a % (o + x) < o + x := Nat.mod_lt _ (by omega)
  constructor
  · intro h
    have hg : grossOf o a x < 334 := by
      by_contra hcon
      have := product_ok (o := o) (a := a) (x := x) ho (.inr (by omega))
      omega
    have h3 : 3 * grossOf o a x / 1000 = 0 := by omega
    rw [h3, Nat.sub_zero] at h
    rcases gross_rest (a := a) (x := x) ho with ⟨h1, h2⟩ | ⟨h1, h2⟩
    · refine ⟨hg, Nat.pos_of_ne_zero fun e => ?_, h1⟩
      rw [Nat.sub_eq_of_eq_add' h2] at h
      omega
    · exfalso
      rw [Nat.sub_eq_of_eq_add' (h2.trans (Nat.add_assoc _ _ _)), Nat.mul_add, Nat.mul_one] at h
      omega
  · rintro ⟨hg, h0, h1⟩
    have h3 : 3 * grossOf o a x / 1000 = 0 := by omega
    rw [h3, Nat.sub_zero]
    rcases gross_rest (a := a) (x := x) ho with ⟨_, h2⟩ | ⟨h2, _⟩
    · rw [Nat.sub_eq_of_eq_add' h2]
      omega
    · omega

theorem product_falls_iff' {o a x : Nat} (ho : o ≠ 0) :
    (o + x) * (a - (grossOf o a x - 3 * grossOf o a x / 1000)) < o * a ↔
      a < o * a / (o + x) + 334 ∧ 0 < o * a % (o + x) ∧ o * a % (o + x) * 10 ^ 18 < o + x := by
  rw [product_falls_iff ho]
  have hD : DF = 10 ^ 18 := by norm_num [DF]
  rw [hD]
  constructor
  · rintro ⟨h1, h2, h3⟩
    rcases gross_rest (a := a) (x := x) ho with ⟨_, h4⟩ | ⟨h4, _⟩
    · refine ⟨?_, h2, h3⟩
      conv_lhs => rw [h4]
      rw [Nat.add_comm]
      exact Nat.add_lt_add_left h1 _
    · rw [hD] at h4; omega
  · rintro ⟨h1, h2, h3⟩
    rcases gross_rest (a := a) (x := x) ho with ⟨_, h4⟩ | ⟨h4, _⟩
    · refine ⟨?_, h2, h3⟩
      generalize grossOf o a x = g at *
      generalize o * a / (o + x) = p at *
      omega
    · rw [hD] at h4; omega

/-- C01, exactly: a priced swap of `x` lowers the product of the reserves `o` and `a` if and only if it pays no commission
(`o * a / (o + x)`, what should remain, is less than 334 units below `a`) and what should remain is not a whole number but
exceeds one by less than `1/10^18`. Missing from C01: these swaps (`C01_counterexample`). -/
theorem C01_exact_partial (o a x r s c : Nat) (h : Priced o a x r s c) :
    (o + x) * (a - r) < o * a ↔
      a < o * a / (o + x) + 334 ∧ 0 < o * a % (o + x) ∧ o * a % (o + x) * 10 ^ 18 < o + x := by
  obtain ⟨h1, _, rfl, _⟩ := h.form
  exact product_falls_iff' h1

/-- C01, exactly, for transactions: whether a swap lowers the product of what the pair holds is determined by what it held and
what was offered. -/
theorem C01_swap_tx_exact_partial {c : Chain} (hc : c.Lawful) {w w' : World} (hw : Reachable c w) {k : PairSite}
    (hk : k.Sound c w) {t : Addr} {j : AssetInfo} (hd : k.Dir (.token t) j) {x : Nat} {adv : Adv} {gas : Nat} {S : Addr}
    (hS : c.IsUser S) {bp ms : Option Nat} {dst : Option Str} (hdst : dst ≠ some k.a)
    (h : runTx c adv gas w S (.exec t (.send k.a x (.swap bp ms dst)) []) = .ok w') :
    let o := held w (.token t) k.a
    let a := held w j k.a
    held w' (.token t) k.a * held w' j k.a < o * a ↔
      a < o * a / (o + x) + 334 ∧ 0 < o * a % (o + x) ∧ o * a % (o + x) * 10 ^ 18 < o + x := by
  obtain ⟨r, s, cm, hp, _, _, _, h1, h2, h3, _⟩ := swap_tx hc hw hk hd hS hdst h
  rw [h1, h3]
  exact C01_exact_partial _ _ _ _ _ _ hp

/-- Offered `x`, reserves `o` and `a`: the commission-free rounding in favour of the trader. -/
def Slip (o a x : Nat) : Prop :=
  a < o * a / (o + x) + 334 ∧ 0 < o * a % (o + x) ∧ o * a % (o + x) * 10 ^ 18 < o + x

/-- A request on which the pool loses. -/
def Leak : Pool × Call → Prop
  | (b, .swap0 x) => Slip b.r0 b.r1 x
  | (b, .swap1 x) => Slip b.r1 b.r0 x
  | _ => False

theorem payout_slip {o a x : Nat} (ho : o ≠ 0) : (o + x) * (a - payout o a x) < o * a ↔ Slip o a x := by
  unfold payout
  rw [gross_eq]
  exact product_falls_iff' ho

theorem Slip.dust {o a x : Nat} (ho : o ≠ 0) (h : Slip o a x) : gross o a x < 334 ∧ 10 ^ 18 < o + x := by
  obtain ⟨_, h2, h3⟩ := h
  refine ⟨?_, ?_⟩
  · rw [gross_eq]
    exact ((product_falls_iff ho).mp ((product_falls_iff' ho).mpr ⟨‹_›, h2, h3⟩)).1
  · calc 10 ^ 18 = 1 * 10 ^ 18 := by norm_num
      _ ≤ o * a % (o + x) * 10 ^ 18 := Nat.mul_le_mul_right _ h2
      _ < o + x := h3

/-- What leaks is dust, but not conversely (the example below). -/
theorem Leak.dust {l : Call} {p q : Pool} (h : Act l p q) (hl : Leak (p, l)) : Dust (p, l) := by
  cases h with
  | swap0 _ x ho _ => exact Slip.dust ho hl
  | swap1 _ x ho _ => exact Slip.dust ho hl
  | init | deposit | withdraw => exact hl.elim

example : ∃ o a x, Act (.swap0 x) ⟨o, a, 1⟩ ⟨o + x, a - payout o a x, 1⟩ ∧ Dust (⟨o, a, 1⟩, .swap0 x) ∧
    ¬ Leak (⟨o, a, 1⟩, .swap0 x) :=
  ⟨2 * 10 ^ 18, 100, 10 ^ 18, .swap0 _ _ (by decide +kernel) (by decide +kernel)
    ⟨by decide +kernel, by decide +kernel, by decide +kernel, by decide +kernel⟩, by unfold Dust; decide +kernel, by unfold Leak Slip; decide +kernel⟩

/-- C22, exactly, one request: with LP tokens in circulation a granted request lowers the value of a share,
`reserve0 * reserve1 / supply^2`, if and only if it is a leak. -/
theorem C22_request_exact_partial {l : Call} {p q : Pool} (h : Act l p q) (hS : p.supply ≠ 0) :
    q.r0 * q.r1 * p.supply ^ 2 < p.r0 * p.r1 * q.supply ^ 2 ↔ Leak (p, l) := by
  have hpos : 0 < p.supply ^ 2 := Nat.pow_pos (Nat.pos_of_ne_zero hS)
  cases h with
  | swap0 _ x ho hp =>
    rw [Nat.mul_lt_mul_right hpos]
    exact payout_slip ho
  | swap1 _ x ho hp =>
    rw [Nat.mul_lt_mul_right hpos, Nat.mul_comm (p.r0 - _), Nat.mul_comm p.r0]
    exact payout_slip ho
  | init _ _ _ h0 => exact absurd h0 hS
  | deposit _ d0 d1 s h1 h2 h3 h4 h5 =>
    have := (Act.deposit p d0 d1 s h1 h2 h3 h4 h5).noLoss (fun h => h) hS
    unfold Pool.NoLoss at this
    exact ⟨fun h => absurd this (by simpa using h), fun h => h.elim⟩
  | withdraw _ s h1 h2 h3 h4 h5 h6 =>
    have := (Act.withdraw p s h1 h2 h3 h4 h5 h6).noLoss (fun h => h) hS
    unfold Pool.NoLoss at this
    exact ⟨fun h => absurd this (by simpa using h), fun h => h.elim⟩

theorem noLoss_of_noLeak {l : Call} {p q : Pool} (h : Act l p q) (hS : p.supply ≠ 0) (hl : ¬ Leak (p, l)) : p.NoLoss q := by
  unfold Pool.NoLoss
  exact Nat.le_of_not_lt fun hlt => hl ((C22_request_exact_partial h hS).mp hlt)

/-- C01 over histories, for assets of any size: swaps none of which is a leak do not lower the product of what the pair holds. -/
theorem C01_no_leak_partial {c : Chain} (hc : c.Lawful) {w w' : World} (hw : Reachable c w)
    {tr : List (World × Frame)} (hl : Hist c w tr w') {k : PairSite} (hk : k.Sound c w)
    (hs : ∀ e ∈ k.calls c tr, IsSwap e) (hd : ∀ e ∈ k.calls c tr, ¬ Leak e) :
    k.Broken w' ∨ held w k.i0 k.a * held w k.i1 k.a ≤ held w' k.i0 k.a * held w' k.i1 k.a := by
  rcases C21_constant_product hc hw hl hk with h | ⟨_, h⟩
  · exact .inl h
  · refine .inr ?_
    change (k.pool w).r0 * (k.pool w).r1 ≤ (k.pool w').r0 * (k.pool w').r1
    generalize k.calls c tr = cs at *
    generalize k.pool w = p at *
    generalize k.pool w' = q at *
    induction h with
    | done _ _ h => exact Nat.mul_le_mul h.r0 h.r1
    | call p b q r l rest h1 h2 h3 ih =>
      have ih := ih (fun e he => hs e (List.mem_cons_of_mem _ he)) (fun e he => hd e (List.mem_cons_of_mem _ he))
      refine ((Nat.mul_le_mul h1.r0 h1.r1).trans ?_).trans ih
      have hs := hs _ List.mem_cons_self
      have hd := hd _ List.mem_cons_self
      cases h2 with
      | swap0 _ x ho h => exact Nat.le_of_not_lt fun hlt => hd ((payout_slip ho).mp hlt)
      | swap1 _ x ho h =>
        rw [Nat.mul_comm b.r0, Nat.mul_comm (b.r0 - _)]
        exact Nat.le_of_not_lt fun hlt => hd ((payout_slip ho).mp hlt)
      | init | deposit | withdraw => exact hs.elim

/-- C22 for assets of any size: over any history without a leak and without a deposit to a pair without LP tokens, the value of
a share has not fallen. Every leak does lower it (`C22_request_exact_partial`), so nothing weaker would do for all requests. -/
theorem C22_no_leak_partial {c : Chain} (hc : c.Lawful) {w w' : World} (hw : Reachable c w)
    {tr : List (World × Frame)} (hl : Hist c w tr w') {k : PairSite} (hk : k.Sound c w)
    (hf : ∀ e ∈ k.calls c tr, ¬ First e) (hd : ∀ e ∈ k.calls c tr, ¬ Leak e) :
    k.Broken w' ∨ (k.pool w).r0 * (k.pool w).r1 * (k.pool w').supply ^ 2 ≤
      (k.pool w').r0 * (k.pool w').r1 * (k.pool w).supply ^ 2 := by
  rcases C21_constant_product hc hw hl hk with h | ⟨_, h⟩
  · exact .inl h
  · exact .inr (h.noLoss_of (fun e he _ ha hS => noLoss_of_noLeak ha hS (hd e he)) hf)

/-- C20 for assets of any size: over any history without a leak backed shares stay backed. -/
theorem C20_no_leak_partial {c : Chain} (hc : c.Lawful) {w w' : World} (hw : Reachable c w)
    {tr : List (World × Frame)} (hl : Hist c w tr w') {k : PairSite} (hk : k.Sound c w)
    (hd : ∀ e ∈ k.calls c tr, ¬ Leak e) (hb : (k.pool w).supply ^ 2 ≤ (k.pool w).r0 * (k.pool w).r1) :
    k.Broken w' ∨ (k.pool w').supply ^ 2 ≤ (k.pool w').r0 * (k.pool w').r1 := by
  rcases C21_constant_product hc hw hl hk with h | ⟨_, h⟩
  · exact .inl h
  · exact .inr (h.backed_of (fun e he _ ha hS => noLoss_of_noLeak ha hS (hd e he)) hb)

/-- The swap of `C01_counterexample` meets the condition, that of `priced_example` does not. -/
example : (∃ o a x r s c, Priced o a x r s c ∧
      a < o * a / (o + x) + 334 ∧ 0 < o * a % (o + x) ∧ o * a % (o + x) * 10 ^ 18 < o + x) ∧
    ¬ (20000 < 10000 * 20000 / (10000 + 1000) + 334) := by
  obtain ⟨o, a, x, r, s, c, h, hlt⟩ := C01_counterexample
  exact ⟨⟨o, a, x, r, s, c, h, (C01_exact_partial o a x r s c h).mp hlt⟩, by norm_num⟩

namespace Demo

example := C01_swap_tx_exact_partial lawful deployed_reachable sound_AB (t := tA) (j := .token tB) (.inl ⟨rfl, rfl⟩)
  isUser_user (by decide) (runs_one swapA_run)

example := C01_no_leak_partial lawful deployed_reachable (hist_runs swapped_run) sound_AB
  (by rw [swapped_calls]; simp [IsSwap]) (by rw [swapped_calls]; simp [Leak, Slip])
example := C22_no_leak_partial lawful deployed_reachable trade_hist sound_AB
  (by rw [trade_calls]; simp [First]) (by rw [trade_calls]; simp [Leak, Slip])
example := C20_no_leak_partial lawful deployed_reachable trade_hist sound_AB
  (by rw [trade_calls]; simp [Leak, Slip]) (by decide +kernel)
/-- The swap in `bigSwap` is a leak. -/
example : Leak (siteBig.pool big, .swap0 ((3 * 999999999 ^ 2 - 1) / 2)) := by unfold Leak Slip; decide +kernel

end Demo
end Halo
