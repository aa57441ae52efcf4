import Verif.Props.Swap
import Verif.Props.Undo
/-! # Fees accrue to the pool (C70) and splitting a trade (C71) -/

namespace Halo
open _root_.Halo.Spec

/-! ## C70 -/

/-- What a swap of `x` adds to the product of the reserves at least: the commission times the new offer reserve, less one unit
for every full `10^18` units the offer reserve has more than one. -/
def feeGain (o a x : Nat) : Nat := 3 * gross o a x / 1000 * (o + x) - (o + x - 1) / 10 ^ 18

/-- What a request adds to the product of the reserves at least. -/
def callGain : Pool × Call → Nat
  | (b, .swap0 x) => feeGain b.r0 b.r1 x
  | (b, .swap1 x) => feeGain b.r1 b.r0 x
  | _ => 0

theorem payout_gain {o a x : Nat} (ho : o ≠ 0) (hd : ¬ (gross o a x < 334 ∧ 10 ^ 18 < o + x)) :
    o * a + feeGain o a x ≤ (o + x) * (a - payout o a x) := by
  have hk := gross_key (o := o) (a := a) (x := x) (by omega)
  have hD : DF = 10 ^ 18 := by norm_num [DF]
  rw [hD, ← gross_eq] at hk
  have hga : gross o a x ≤ a := by rw [gross_eq]; exact grossOf_le o a x
  unfold feeGain payout
  generalize gross o a x = g at *
  generalize hf : 3 * g / 1000 = f
  have h1 : (o + x) * g ≤ a * x + (o + x - 1) / 10 ^ 18 := by
    have e1 : 10 ^ 18 * ((o + x) * g) ≤ 10 ^ 18 * (a * x) + (o + x - 1) := by
      have : 10 ^ 18 * (o + x) * g = 10 ^ 18 * ((o + x) * g) := by ring
      have : 10 ^ 18 * a * x = 10 ^ 18 * (a * x) := by ring
      omega
    generalize (o + x) * g = u at *
    generalize a * x = v at *
    omega
  have h2 : (o + x) * (a - (g - f)) + (o + x) * g = (o + x) * a + (o + x) * f := by
    rw [← Nat.mul_add, ← Nat.mul_add]
    congr 1
    omega
  have h3 : (o + x) * a = o * a + a * x := by ring
  have h4 : f * (o + x) = (o + x) * f := by ring
  have h5 : (o + x - 1) / 10 ^ 18 ≤ f * (o + x) := by
    by_cases h : o + x ≤ 10 ^ 18
    · rw [Nat.div_eq_of_lt (by omega)]; omega
    · have : 1 ≤ f := by omega
      have : (o + x - 1) / 10 ^ 18 ≤ o + x := (Nat.div_le_self _ _).trans (by omega)
      nlinarith
  omega

theorem path_gain {p q : Pool} {cs : List (Pool × Call)} (h : Path p cs q) (hs : ∀ e ∈ cs, IsSwap e)
    (hd : ∀ e ∈ cs, ¬ Dust e) : p.r0 * p.r1 + (cs.map callGain).sum ≤ q.r0 * q.r1 := by
  induction h with
  | done _ _ h => simpa using Nat.mul_le_mul h.r0 h.r1
  | call p b q r l rest h1 h2 h3 ih =>
    have ih := ih (fun e he => hs e (List.mem_cons_of_mem _ he)) (fun e he => hd e (List.mem_cons_of_mem _ he))
    have hs := hs _ List.mem_cons_self
    have hd := hd _ List.mem_cons_self
    have h0 := Nat.mul_le_mul h1.r0 h1.r1
    rw [List.map_cons, List.sum_cons]
    have key : b.r0 * b.r1 + callGain (b, l) ≤ q.r0 * q.r1 := by
      cases h2 with
      | swap0 _ x ho h => exact payout_gain ho hd
      | swap1 _ x ho h =>
        have := payout_gain (a := b.r0) ho hd
        simp only [callGain]
        rw [Nat.mul_comm b.r0, Nat.mul_comm (b.r0 - _)]
        exact this
      | init | deposit | withdraw => exact hs.elim
    omega

/-- **C70.** The fees stay with the liquidity providers: over any history in which the pair was asked only for swaps that are
not dust, the product of what it holds has grown by at least the sum over all swaps of commission times new offer reserve
(`feeGain`). -/
theorem C70_fees_accrue {c : Chain} (hc : c.Lawful) {w w' : World} (hw : Reachable c w)
    {tr : List (World × Frame)} (hl : Hist c w tr w') {k : PairSite} (hk : k.Sound c w)
    (hs : ∀ e ∈ k.calls c tr, IsSwap e) (hd : ∀ e ∈ k.calls c tr, ¬ Dust e) :
    k.Broken w' ∨ held w k.i0 k.a * held w k.i1 k.a + ((k.calls c tr).map callGain).sum ≤
      held w' k.i0 k.a * held w' k.i1 k.a := by
  rcases C21_constant_product hc hw hl hk with h | ⟨_, h⟩
  · exact .inl h
  · exact .inr (path_gain h hs hd)

/-- **C70.** A swap transaction that leaves at most `10^18` units of the offered asset in the pair, or pays at least 334 units,
and whose gross output is `g`, raises the product of what the pair holds by at least `floor(3*g/1000)` times the new offer
reserve, less `floor((new offer reserve - 1) / 10^18)`. -/
theorem C70_fee_tx {c : Chain} (hc : c.Lawful) {w w' : World} (hw : Reachable c w) {k : PairSite}
    (hk : k.Sound c w) {t : Addr} {j : AssetInfo} (hd : k.Dir (.token t) j) {x : Nat} {adv : Adv} {gas : Nat} {S : Addr}
    (hS : c.IsUser S) {bp ms : Option Nat} {dst : Option Str} (hdst : dst ≠ some k.a)
    (h : runTx c adv gas w S (.exec t (.send k.a x (.swap bp ms dst)) []) = .ok w')
    (hb : held w' (.token t) k.a ≤ 10 ^ 18 ∨ held w' j k.a + 334 ≤ held w j k.a) :
    ∃ g, held w' j k.a + g = held w j k.a + 3 * g / 1000 ∧
      held w (.token t) k.a * held w j k.a + 3 * g / 1000 * held w' (.token t) k.a ≤
        held w' (.token t) k.a * held w' j k.a + (held w' (.token t) k.a - 1) / 10 ^ 18 := by
  obtain ⟨r, s, cm, hp, _, _, _, h1, h2, h3, _⟩ := swap_tx hc hw hk hd hS hdst h
  obtain ⟨ho, _, hr, _⟩ := hp.form
  have hga : gross (held w (.token t) k.a) (held w j k.a) x ≤ held w j k.a := by rw [gross_eq]; exact grossOf_le _ _ _
  have hr' : r = payout (held w (.token t) k.a) (held w j k.a) x := by
    rw [hr]; unfold payout; rw [gross_eq]
  refine ⟨gross (held w (.token t) k.a) (held w j k.a) x, ?_, ?_⟩
  · unfold payout at hr'
    omega
  · have hp := payout_gain (o := held w (.token t) k.a) (a := held w j k.a) (x := x) ho (by
      unfold payout at hr'
      omega)
    rw [← hr', ← h1, ← h3] at hp
    unfold feeGain at hp
    rw [← h1] at hp
    omega

/-! ## C71 -/

private theorem out_le_gross {o a X a' : Nat} (ho : o ≠ 0) (h : o * a ≤ (o + X) * a') : a ≤ a' + gross o a X := by
  rw [gross_eq]
  have h1 := floor_le_gross (o := o) (a := a) (x := X) (by omega)
  have h2 : a - a' ≤ a * X / (o + X) := by
    rw [Nat.le_div_iff_mul_le (by omega), Nat.sub_mul]
    have : a * (o + X) = o * a + a * X := by ring
    have : a' * (o + X) = (o + X) * a' := by ring
    omega
  omega

/-- **C71.** However a trade is split, and whoever else trades in between: if over a history in which the pair was asked only
for swaps that are not dust the pair's holdings of one asset have grown by `X`, it has given away of the other at most the gross
output of a single swap of `X`: what that swap would have paid, and its fee. -/
theorem C71_split_history_partial {c : Chain} (hc : c.Lawful) {w w' : World} (hw : Reachable c w)
    {tr : List (World × Frame)} (hl : Hist c w tr w') {k : PairSite} (hk : k.Sound c w)
    (hs : ∀ e ∈ k.calls c tr, IsSwap e) (hd : ∀ e ∈ k.calls c tr, ¬ Dust e) {X : Nat} :
    k.Broken w' ∨
      ((held w k.i0 k.a ≠ 0 → held w' k.i0 k.a = held w k.i0 k.a + X →
        held w k.i1 k.a ≤ held w' k.i1 k.a + gross (held w k.i0 k.a) (held w k.i1 k.a) X) ∧
       (held w k.i1 k.a ≠ 0 → held w' k.i1 k.a = held w k.i1 k.a + X →
        held w k.i0 k.a ≤ held w' k.i0 k.a + gross (held w k.i1 k.a) (held w k.i0 k.a) X)) := by
  rcases C01_swaps_keep_product_partial hc hw hl hk hs hd with h | h
  · exact .inl h
  · refine .inr ⟨fun h0 h1 => out_le_gross h0 (by rw [← h1]; exact h), fun h0 h1 => out_le_gross h0 ?_⟩
    rw [← h1, Nat.mul_comm (held w k.i1 k.a), Nat.mul_comm (held w' k.i1 k.a)]
    exact h

/-- `S` makes swaps of `xs` of the token `t`, one after the other, each in a transaction of its own. -/
def swapAll (c : Chain) (adv : Adv) (gas : Nat) (k : PairSite) (S t : Addr) (w : World) (xs : List Nat) : R World :=
  xs.foldlM (fun v x => runTx c adv gas v S (.exec t (.send k.a x (.swap none none none)) [])) w

theorem swapAll_inv {c : Chain} (hc : c.Lawful) {k : PairSite} {t : Addr} {j : AssetInfo} (hd : k.Dir (.token t) j)
    {adv : Adv} {gas : Nat} {S : Addr} (hS : c.IsUser S) {xs : List Nat} {w w' : World} (hw : Reachable c w)
    (hk : k.Sound c w) (h : swapAll c adv gas k S t w xs = .ok w') (hb : held w (.token t) k.a + xs.sum ≤ 10 ^ 18) :
    held w' (.token t) k.a = held w (.token t) k.a + xs.sum ∧
    held w' (.token t) S + xs.sum = held w (.token t) S ∧
    held w' j S + held w' j k.a = held w j S + held w j k.a ∧
    held w (.token t) k.a * held w j k.a ≤ held w' (.token t) k.a * held w' j k.a := by
  induction xs generalizing w with
  | nil => cases h; simp
  | cons x t' ih =>
    simp only [swapAll, List.foldlM_cons, bind_eq_ok] at h
    obtain ⟨v, h1, h2⟩ := h
    rw [List.sum_cons] at hb ⊢
    obtain ⟨r, s, cm, hp, hkv, e1, e2, e3, e4, e5, e6⟩ := swap_tx hc hw hk hd hS (by simp) h1
    have hm := C01_swap_tx_partial hc hw hk hd hS (by simp) h1 (.inl (by omega))
    obtain ⟨f1, f2, f3, f4⟩ := ih (.step _ _ hw (.tx _ _ _ _ _ _ hS h1)) hkv h2 (by omega)
    simp only [Option.getD_none] at e6
    refine ⟨by omega, by omega, by omega, hm.trans f4⟩

/-- **C71 (partial).** A user who splits a swap of `X` into several swaps gets at most the gross output of the single swap: what
the single swap would have paid (`held w1 j S - held w j S`) and its fee (for pairs that end with at most `10^18` units of the
offered asset). Missing: not even the fee (`C71_counterexample`). -/
theorem C71_split_partial {c : Chain} (hc : c.Lawful) {w w1 w2 : World} (hw : Reachable c w) {k : PairSite}
    (hk : k.Sound c w) {t : Addr} {j : AssetInfo} (hd : k.Dir (.token t) j) {xs : List Nat} {adv : Adv} {gas : Nat}
    {S : Addr} (hS : c.IsUser S) (h1 : swapAll c adv gas k S t w [xs.sum] = .ok w1)
    (h2 : swapAll c adv gas k S t w xs = .ok w2) (hb : held w (.token t) k.a + xs.sum ≤ 10 ^ 18) :
    held w2 (.token t) S = held w1 (.token t) S ∧
    ∃ g, held w1 j S + 3 * g / 1000 = held w j S + g ∧ held w2 j S ≤ held w1 j S + 3 * g / 1000 := by
  have h1' : runTx c adv gas w S (.exec t (.send k.a xs.sum (.swap none none none)) []) = .ok w1 := by
    simp only [swapAll, List.foldlM_cons, List.foldlM_nil, bind_eq_ok, pure_eq_ok] at h1
    obtain ⟨v, h, rfl⟩ := h1
    exact h
  obtain ⟨r, s, cm, hp, _, e1, e2, e3, e4, e5, e6⟩ := swap_tx hc hw hk hd hS (by simp) h1'
  obtain ⟨f1, f2, f3, f4⟩ := swapAll_inv hc hd hS hw hk h2 hb
  obtain ⟨ho, _, hr, _⟩ := hp.form
  rw [f1] at f4
  have hg := out_le_gross ho f4
  rw [gross_eq] at hg
  simp only [Option.getD_none] at e6
  refine ⟨by omega, grossOf (held w (.token t) k.a) (held w j k.a) xs.sum, by omega, by omega⟩

/-- What several swaps in one direction leave in the pool: their commissions `C`, valued at the offer reserve before the first. -/
theorem swapAll_fees {c : Chain} (hc : c.Lawful) {k : PairSite} {t : Addr} {j : AssetInfo} (hd : k.Dir (.token t) j)
    {adv : Adv} {gas : Nat} {S : Addr} (hS : c.IsUser S) {xs : List Nat} {w w' : World} (hw : Reachable c w)
    (hk : k.Sound c w) (h : swapAll c adv gas k S t w xs = .ok w') (hb : held w (.token t) k.a + xs.sum ≤ 10 ^ 18) :
    ∃ R C, held w j k.a = held w' j k.a + R ∧ held w' j S = held w j S + R ∧ 3 * R ≤ 997 * C + 999 * xs.length ∧
      held w (.token t) k.a * held w j k.a + held w (.token t) k.a * C ≤
        (held w (.token t) k.a + xs.sum) * held w' j k.a := by
  induction xs generalizing w with
  | nil => cases h; exact ⟨0, 0, by simp⟩
  | cons x t' ih =>
    simp only [swapAll, List.foldlM_cons, bind_eq_ok] at h
    obtain ⟨v, h1, h2⟩ := h
    rw [List.sum_cons] at hb ⊢
    obtain ⟨r, s, cm, hp, hkv, e1, e2, e3, e4, e5, e6⟩ := swap_tx hc hw hk hd hS (by simp) h1
    obtain ⟨R, C, f1, f2, f3, f4⟩ := ih (.step _ _ hw (.tx _ _ _ _ _ _ hS h1)) hkv h2 (by omega)
    obtain ⟨ho, _, _⟩ := hp.form
    have hrate := C03_commission_rate _ _ _ _ _ _ hp
    have hex := C04_exact _ _ _ _ _ _ hp (by omega)
    have hle := C02_payable _ _ _ _ _ _ hp
    simp only [Option.getD_none] at e6
    refine ⟨r + R, cm + C, by omega, by omega, by rw [List.length_cons]; omega, ?_⟩
    have hfl := Nat.div_mul_le_self (held w j k.a * x) (held w (.token t) k.a + x)
    rw [← hex] at hfl
    have ev : held v j k.a = held w j k.a - r := by omega
    rw [e3] at f4
    generalize held w (.token t) k.a = o at *
    generalize held w j k.a = a at *
    generalize held v j k.a = a1 at *
    obtain ⟨b, rfl⟩ : ∃ b, a = r + cm + b := ⟨a - (r + cm), by omega⟩
    have ea : a1 = cm + b := by omega
    subst ea
    calc o * (r + cm + b) + o * (cm + C) ≤ (o + x) * b + o * cm + o * C := by nlinarith
      _ ≤ (o + x) * (cm + b) + (o + x) * C := by nlinarith [Nat.zero_le (x * cm), Nat.zero_le (x * C)]
      _ ≤ _ := by rw [← Nat.add_assoc]; exact f4

/-- **C71 (partial).** However a user splits a swap of `X` into `n` swaps, with reserves `o` and `a` before, they get in all at most
`997*a*X / (1000*o + 997*X)` units, the output of a constant-product swap with a fee of 0.3% on the input, and less than one unit
more for each portion (for pairs that end with at most `10^18` units of the offered asset). -/
theorem C71_split_total_partial {c : Chain} (hc : c.Lawful) {w w2 : World} (hw : Reachable c w) {k : PairSite}
    (hk : k.Sound c w) {t : Addr} {j : AssetInfo} (hd : k.Dir (.token t) j) {xs : List Nat} {adv : Adv} {gas : Nat}
    {S : Addr} (hS : c.IsUser S) (h2 : swapAll c adv gas k S t w xs = .ok w2)
    (hb : held w (.token t) k.a + xs.sum ≤ 10 ^ 18) :
    held w j S ≤ held w2 j S ∧ (held w2 j S - held w j S) * (1000 * held w (.token t) k.a + 997 * xs.sum) ≤
      997 * held w j k.a * xs.sum + 999 * xs.length * held w (.token t) k.a := by
  obtain ⟨R, C, f1, f2, f3, f4⟩ := swapAll_fees hc hd hS hw hk h2 hb
  refine ⟨by omega, ?_⟩
  have e : held w2 j S - held w j S = R := by omega
  rw [e]
  generalize held w (.token t) k.a = o at *
  rw [f1] at f4 ⊢
  generalize held w2 j k.a = a' at *
  generalize xs.sum = X at *
  have h5 := Nat.mul_le_mul_left o f3
  nlinarith

/-- **C71 (partial).** So splitting a swap of `X` into `n` portions gains over the single swap at most `0.3% * X/(o+X)` of what the
user gets, one unit for each portion, and one more. -/
theorem C71_split_gain_partial {c : Chain} (hc : c.Lawful) {w w1 w2 : World} (hw : Reachable c w) {k : PairSite}
    (hk : k.Sound c w) {t : Addr} {j : AssetInfo} (hd : k.Dir (.token t) j) {xs : List Nat} {adv : Adv} {gas : Nat}
    {S : Addr} (hS : c.IsUser S) (h1 : swapAll c adv gas k S t w [xs.sum] = .ok w1)
    (h2 : swapAll c adv gas k S t w xs = .ok w2) (hb : held w (.token t) k.a + xs.sum ≤ 10 ^ 18) :
    (held w2 j S - held w1 j S) * (1000 * (held w (.token t) k.a + xs.sum)) ≤
      3 * xs.sum * (held w2 j S - held w j S) + 1000 * (xs.length + 1) * (held w (.token t) k.a + xs.sum) := by
  have h1' : runTx c adv gas w S (.exec t (.send k.a xs.sum (.swap none none none)) []) = .ok w1 := by
    simp only [swapAll, List.foldlM_cons, List.foldlM_nil, bind_eq_ok, pure_eq_ok] at h1
    obtain ⟨v, h, rfl⟩ := h1
    exact h
  obtain ⟨r, s, cm, hp, _, e1, e2, e3, e4, e5, e6⟩ := swap_tx hc hw hk hd hS (by simp) h1'
  obtain ⟨g1, g2⟩ := C71_split_total_partial hc hw hk hd hS h2 hb
  obtain ⟨ho, _, _⟩ := hp.form
  have hrate := C03_commission_rate _ _ _ _ _ _ hp
  have hex := C04_exact _ _ _ _ _ _ hp hb
  simp only [Option.getD_none] at e6
  have hlt : held w j k.a * xs.sum < (r + cm + 1) * (held w (.token t) k.a + xs.sum) :=
    (Nat.div_lt_iff_lt_mul (by omega)).mp (by omega)
  obtain ⟨R, hR⟩ : ∃ R, held w2 j S = held w j S + R := ⟨held w2 j S - held w j S, by omega⟩
  have eR : held w2 j S - held w j S = R := by omega
  have eG : held w2 j S - held w1 j S = R - r := by omega
  rw [eR] at g2 ⊢
  rw [eG]
  generalize held w (.token t) k.a = o at *
  generalize held w j k.a = a at *
  generalize xs.sum = X at *
  generalize xs.length = n at *
  rcases Nat.le_total R r with hle | hle
  · rw [Nat.sub_eq_zero_of_le hle]; simp
  · obtain ⟨d, rfl⟩ := Nat.exists_eq_add_of_le hle
    rw [Nat.add_sub_cancel_left]
    have k1 : 997 * (r + cm + 1) ≤ 1000 * r + 997 := by omega
    have k2 := Nat.mul_le_mul_right (o + X) k1
    have k3 : 997 * (a * X) ≤ (1000 * r + 997) * (o + X) := by nlinarith
    nlinarith [Nat.zero_le (n * X), Nat.zero_le (n * o)]

namespace Demo

example := C70_fees_accrue lawful deployed_reachable (hist_runs swapped_run) sound_AB
  (by rw [swapped_calls]; simp [IsSwap]) (by rw [swapped_calls]; simp [Dust])
/-- The two swaps of `backForth` pay fees of 5 B and 2 A. -/
example : ((siteAB.calls chain (traces backForth deployed)).map callGain).sum = 5 * 11000 + 2 * 19887 := by
  rw [swapped_calls]; decide +kernel
example := C70_fee_tx lawful deployed_reachable sound_AB (t := tA) (j := .token tB) (.inl ⟨rfl, rfl⟩) isUser_user
  (by decide) (runs_one swapA_run) (by decide +kernel)
example := C71_split_history_partial lawful deployed_reachable (hist_runs swapped_run) sound_AB
  (by rw [swapped_calls]; simp [IsSwap]) (by rw [swapped_calls]; simp [Dust]) (X := 3)

/-- 1000 A at once, and in portions that pay less than 334 B each. -/
def atOnce : World := worldOf (swapAll chain idle 20 siteAB user tA deployed [1000])
theorem atOnce_run : swapAll chain idle 20 siteAB user tA deployed [1000] = .ok atOnce := worldOf_eq (by decide +kernel)
def portions : List Nat := [160, 160, 160, 170, 170, 180]
def inPortions : World := worldOf (swapAll chain idle 20 siteAB user tA deployed portions)
theorem inPortions_run : swapAll chain idle 20 siteAB user tA deployed portions = .ok inPortions :=
  worldOf_eq (by decide +kernel)
example := C71_split_gain_partial lawful deployed_reachable sound_AB (t := tA) (j := .token tB) (.inl ⟨rfl, rfl⟩) (xs := portions)
  isUser_user atOnce_run inPortions_run (by decide +kernel)
example := C71_split_partial lawful deployed_reachable sound_AB (t := tA) (j := .token tB) (.inl ⟨rfl, rfl⟩) (xs := portions)
  isUser_user atOnce_run inPortions_run (by decide +kernel)

end Demo

/-- **C71 is false of the code**: the commission is rounded down, so swaps that pay less than 334 units are free, and splitting a
swap into such portions pays more. -/
theorem C71_counterexample : ∃ (c : Chain) (w w1 w2 : World) (k : PairSite) (S t : Addr) (j : AssetInfo) (xs : List Nat)
    (adv : Adv) (gas : Nat), c.Lawful ∧ Reachable c w ∧ k.Sound c w ∧ k.Dir (.token t) j ∧ c.IsUser S ∧
    swapAll c adv gas k S t w [xs.sum] = .ok w1 ∧ swapAll c adv gas k S t w xs = .ok w2 ∧
    held w2 (.token t) S = held w1 (.token t) S ∧ held w1 j S < held w2 j S :=
  ⟨Demo.chain, Demo.deployed, Demo.atOnce, Demo.inPortions, Demo.siteAB, Demo.user, Demo.tA, .token Demo.tB, Demo.portions,
    Demo.idle, 20, Demo.lawful, Demo.deployed_reachable, Demo.sound_AB, .inl ⟨rfl, rfl⟩, Demo.isUser_user, Demo.atOnce_run,
    Demo.inPortions_run, by decide +kernel, by decide +kernel⟩

end Halo
