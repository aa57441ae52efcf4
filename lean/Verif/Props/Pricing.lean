import Verif.Lemmas.Pricing
/-!
# C01–C06, C08, C09: the pricing formulas (`compute_swap`, `compute_offer_amount`)

`o` is the offer reserve, `a` the ask reserve, `x` the offered amount (all 128-bit), `(r, s, c)` the returned
amount, spread and commission. `Pair.computeSwap o a x = .ok (r, s, c)` is exactly "the swap is priced
without error or panic"; the entry-point and chain-level versions are in `Props/Guards` and `Props/Pool`.
-/

namespace Halo

/-- A priced swap: all three inputs are 128-bit and `compute_swap` succeeds. -/
def Priced (o a x r s c : Nat) : Prop :=
  o < 2 ^ 128 ∧ a < 2 ^ 128 ∧ x < 2 ^ 128 ∧ Pair.computeSwap o a x = .ok (r, s, c)

/-- Concrete priced swap: 1000 into a 10000/20000 pool returns 1813, commission 5, spread 182. -/
theorem priced_example : Priced 10000 20000 1000 1813 182 5 := by
  refine ⟨by norm_num, by norm_num, by norm_num, ?_⟩
  rw [computeSwap_ok_iff (by norm_num) (by norm_num) (by norm_num)]
  norm_num [grossOf, idealOf, DF]

theorem Priced.form {o a x r s c : Nat} (h : Priced o a x r s c) :
    o ≠ 0 ∧ c = 3 * grossOf o a x / 1000 ∧ r = grossOf o a x - 3 * grossOf o a x / 1000 ∧
    grossOf o a x ≤ idealOf o a x ∧ s = idealOf o a x - grossOf o a x ∧ r + c = grossOf o a x := by
  obtain ⟨ho, ha, hx, h⟩ := h
  rw [computeSwap_ok_iff ho ha hx] at h
  obtain ⟨h1, _, _, h2, _, rfl, rfl, rfl⟩ := h
  refine ⟨h1, rfl, rfl, h2, rfl, by omega⟩

/-! ## C01 -/

/-- **C01 is false of the code**: a swap that lowers the product of the reserves.
(The full claim: `Priced o a x r s c → o * a ≤ (o + x) * (a - r)`.) -/
theorem C01_counterexample :
    ∃ o a x r s c, Priced o a x r s c ∧ (o + x) * (a - r) < o * a := by
  refine ⟨2000000000000000001, 3, 1000000000000000000, 1, 0, 0,
    ⟨by norm_num, by norm_num, by norm_num, ?_⟩, by norm_num⟩
  rw [computeSwap_ok_iff (by norm_num) (by norm_num) (by norm_num)]
  norm_num [grossOf, idealOf, DF]

/-- **C01 (partial).** The product of the reserves never falls if the new offer reserve is at most `10^18`
units or the gross output is at least 334 units (i.e. a commission is charged). Missing: dust outputs (< 334
units) from pools whose offer reserve exceeds `10^18` units, where it is false (`C01_counterexample`). -/
theorem C01_partial (o a x r s c : Nat) (h : Priced o a x r s c)
    (hc : o + x ≤ 10 ^ 18 ∨ 334 ≤ r + c) : o * a ≤ (o + x) * (a - r) := by
  obtain ⟨h1, rfl, rfl, _, _, h2⟩ := h.form
  rw [h2] at hc
  exact product_ok h1 hc

/-- **C01 (partial), whenever a commission is charged.** -/
theorem C01_commission_partial (o a x r s c : Nat) (h : Priced o a x r s c) (hc : 1 ≤ c) :
    o * a ≤ (o + x) * (a - r) := by
  obtain ⟨h1, hc', hr, _, _, h2⟩ := h.form
  exact C01_partial o a x r s c h (.inr (by omega))

/-- **C01 (partial), all swaps.** The product can fall by less than `(o + x) / 10^18`. -/
theorem C01_bound_partial (o a x r s c : Nat) (h : Priced o a x r s c) :
    o * a * 10 ^ 18 < (o + x) * (a - r) * 10 ^ 18 + (o + x) := by
  obtain ⟨h1, rfl, rfl, _, _, h2⟩ := h.form
  exact product_bound h1

example : ∃ o a x r s c, Priced o a x r s c ∧ (o + x ≤ 10 ^ 18 ∨ 334 ≤ r + c) ∧ 1 ≤ c :=
  ⟨_, _, _, _, _, _, priced_example, by norm_num⟩

/-! ## C02 -/

/-- **C02.** What is paid out plus the commission never exceeds the ask reserve. -/
theorem C02_payable (o a x r s c : Nat) (h : Priced o a x r s c) : r + c ≤ a := by
  rw [h.form.2.2.2.2.2]; exact grossOf_le o a x

/-- **C02**, sharper: a swap never empties an ask reserve of at least 334 units. -/
theorem C02_never_drained (o a x r s c : Nat) (h : Priced o a x r s c) (ha : 334 ≤ a) : r < a := by
  obtain ⟨h1, rfl, rfl, _, _, h2⟩ := h.form
  have hle := grossOf_le o a x
  omega

/-- Smaller reserves can be emptied completely (a property of the code, not of the ideal curve). -/
theorem C02_dust_drained : ∃ o a x r s c, Priced o a x r s c ∧ 0 < a ∧ r = a := by
  refine ⟨1, 2, 10000000000000000000, 2, 19999999999999999998, 0,
    ⟨by norm_num, by norm_num, by norm_num, ?_⟩, by norm_num⟩
  rw [computeSwap_ok_iff (by norm_num) (by norm_num) (by norm_num)]
  norm_num [grossOf, idealOf, DF]

example : ∃ o a x r s c, Priced o a x r s c ∧ 334 ≤ a := ⟨_, _, _, _, _, _, priced_example, by norm_num⟩

/-! ## C03 -/

/-- **C03.** The commission is exactly 0.3% of the gross output `r + c`, rounded down.
(That `r` is what leaves the pool, so that `c` stays in it: `C03_swap_pays_return` in `Props/Guards`.) -/
theorem C03_commission_rate (o a x r s c : Nat) (h : Priced o a x r s c) : c = 3 * (r + c) / 1000 := by
  obtain ⟨_, h1, _, _, _, h2⟩ := h.form
  rw [h2]; exact h1

/-! ## C04 -/

/-- **C04.** The gross output is the constant-product output `floor(a*x/(o+x))`, or one unit more. -/
theorem C04_constant_product (o a x r s c : Nat) (h : Priced o a x r s c) :
    a * x / (o + x) ≤ r + c ∧ r + c ≤ a * x / (o + x) + 1 := by
  obtain ⟨h1, _, _, _, _, h2⟩ := h.form
  rw [h2]
  exact ⟨floor_le_gross (by omega), gross_le_floor_succ (by omega)⟩

/-- **C04.** It is exactly the constant-product output while the new offer reserve is at most `10^18`. -/
theorem C04_exact (o a x r s c : Nat) (h : Priced o a x r s c) (hD : o + x ≤ 10 ^ 18) :
    r + c = a * x / (o + x) := by
  obtain ⟨h1, _, _, _, _, h2⟩ := h.form
  rw [h2]; exact gross_eq_floor (by omega) hD

example : ∃ o a x r s c, Priced o a x r s c ∧ o + x ≤ 10 ^ 18 :=
  ⟨_, _, _, _, _, _, priced_example, by norm_num⟩

/-! ## C05 -/

/-- **C05.** Offering more never returns less. -/
theorem C05_monotone (o a x₁ x₂ r₁ s₁ c₁ r₂ s₂ c₂ : Nat) (h₁ : Priced o a x₁ r₁ s₁ c₁)
    (h₂ : Priced o a x₂ r₂ s₂ c₂) (hx : x₁ ≤ x₂) : r₁ ≤ r₂ := by
  obtain ⟨ho, _, rfl, _⟩ := h₁.form
  obtain ⟨_, _, rfl, _⟩ := h₂.form
  have := gross_mono (a := a) ho hx
  omega

/-- **C05**, for the reserves: against a deeper offer side the same offer never returns more. -/
theorem C05_antitone_offer_reserve (o₁ o₂ a x r₁ s₁ c₁ r₂ s₂ c₂ : Nat) (h₁ : Priced o₁ a x r₁ s₁ c₁)
    (h₂ : Priced o₂ a x r₂ s₂ c₂) (ho : o₁ ≤ o₂) : r₂ ≤ r₁ := by
  obtain ⟨h1, _, rfl, _⟩ := h₁.form
  obtain ⟨h2, _, rfl, _⟩ := h₂.form
  have := gross_anti_offer (a := a) (x := x) h1 ho
  omega

example : ∃ o a x₁ x₂ r₁ s₁ c₁ r₂ s₂ c₂, Priced o a x₁ r₁ s₁ c₁ ∧ Priced o a x₂ r₂ s₂ c₂ ∧ x₁ < x₂ := by
  refine ⟨10000, 20000, 1000, 2000, 1813, 182, 5, 3324, 667, 9, priced_example,
    ⟨by norm_num, by norm_num, by norm_num, ?_⟩, by norm_num⟩
  rw [computeSwap_ok_iff (by norm_num) (by norm_num) (by norm_num)]
  norm_num [grossOf, idealOf, DF]

/-! ## C06 -/

/-- **C06.** Swapping `x` there and everything received back returns at most `x`. -/
theorem C06_round_trip (o a x y s c z s' c' : Nat) (h₁ : Priced o a x y s c)
    (h₂ : Priced (a - y) (o + x) y z s' c') : z ≤ x := by
  obtain ⟨ho, _, rfl, hi, _⟩ := h₁.form
  obtain ⟨ho2, _, rfl, _⟩ := h₂.form
  exact round_trip ho hi ho2

example : ∃ o a x y s c z s' c', Priced o a x y s c ∧ Priced (a - y) (o + x) y z s' c' ∧ 0 < z := by
  refine ⟨10000, 20000, 1000, 1813, 182, 5, 995, 99, 2, priced_example,
    ⟨by norm_num, by norm_num, by norm_num, ?_⟩, by norm_num⟩
  rw [computeSwap_ok_iff (by norm_num) (by norm_num) (by norm_num)]
  norm_num [grossOf, idealOf, DF]

/-! ## C08 -/

/-- A successful reverse quote: to receive `y`, offer `q`. -/
def Quoted (o a y q s c : Nat) : Prop :=
  o < 2 ^ 128 ∧ a < 2 ^ 128 ∧ y < 2 ^ 128 ∧ Pair.computeOfferAmount o a y = .ok (q, s, c)

theorem Quoted.form {o a y q s c : Nat} (h : Quoted o a y q s c) :
    o ≠ 0 ∧ grossNeeded y < a ∧ q = quoteOf o a y := by
  obtain ⟨ho, ha, hy, h⟩ := h
  rw [computeOfferAmount_ok_iff ho ha hy] at h
  exact ⟨h.1, h.2.1, h.2.2.2.2.2.1⟩

theorem quoted_example : Quoted 10000 20000 1813 999 180 5 := by
  refine ⟨by norm_num, by norm_num, by norm_num, ?_⟩
  rw [computeOfferAmount_ok_iff (by norm_num) (by norm_num) (by norm_num)]
  norm_num [grossNeeded, quoteOf, invC, DF]

/-- **C08.** Swapping the quoted offer returns at most the requested amount: the quote never overcharges by a
whole unit. -/
theorem C08_quote_returns_at_most (o a y q s c r s' c' : Nat) (h₁ : Quoted o a y q s c)
    (h₂ : Priced o a q r s' c') : r ≤ y := by
  obtain ⟨ho, hb, rfl⟩ := h₁.form
  obtain ⟨_, _, rfl, _⟩ := h₂.form
  exact quote_le ho hb

/-- **C08.** One unit more than the quote returns at least the requested amount, for requests up to
`3 * 10^15` units. -/
theorem C08_quote_plus_one_suffices (o a y q s c r s' c' : Nat) (h₁ : Quoted o a y q s c)
    (h₂ : Priced o a (q + 1) r s' c') (hy : y ≤ 3 * 10 ^ 15) : y ≤ r := by
  obtain ⟨ho, hb, rfl⟩ := h₁.form
  obtain ⟨_, _, rfl, _⟩ := h₂.form
  exact (quote_succ_ge ho hb).2 hy

/-- **C08.** For larger requests the shortfall is at most `1 + floor(y / 10^18)` units. -/
theorem C08_quote_plus_one_shortfall (o a y q s c r s' c' : Nat) (h₁ : Quoted o a y q s c)
    (h₂ : Priced o a (q + 1) r s' c') : y ≤ r + 1 + y / 10 ^ 18 := by
  obtain ⟨ho, hb, rfl⟩ := h₁.form
  obtain ⟨_, _, rfl, _⟩ := h₂.form
  exact (quote_succ_ge ho hb).1

/-- The quote itself need not suffice: here asking for 461325817544 units is quoted as an offer of 0. -/
theorem C08_quote_may_fall_short :
    ∃ o a y q s c, Quoted o a y q s c ∧ q = 0 ∧ 0 < y := by
  refine ⟨1, 985395908620, 461325817544, 0, 0, 1388141878, ⟨by norm_num, by norm_num, by norm_num, ?_⟩,
    by norm_num⟩
  rw [computeOfferAmount_ok_iff (by norm_num) (by norm_num) (by norm_num)]
  norm_num [grossNeeded, quoteOf, invC, DF]

example : ∃ o a y q s c r s' c', Quoted o a y q s c ∧ Priced o a (q + 1) r s' c' ∧ y ≤ 3 * 10 ^ 15 :=
  ⟨_, _, _, _, _, _, _, _, _, quoted_example, priced_example, by norm_num⟩

/-! ## C09 -/

/-- **C09 is false of the code**: funded pools on which pricing panics – because the truncated spot price makes the
spread negative, or because `o * a * 10^18` overflows 256 bits. -/
theorem C09_counterexample :
    Pair.computeSwap 3000000000000000000 1000000000000000001 3 = .error (.panic .subUnderflow) ∧
    Pair.computeSwap (2 ^ 99) (2 ^ 99) 1 = .error (.panic .overflow) := by
  constructor <;> rfl

/-- **C09 (exact domain).** When pricing succeeds, in terms of the inputs only. -/
theorem C09_domain (o a x : Nat) (ho : o < 2 ^ 128) (ha : a < 2 ^ 128) (hx : x < 2 ^ 128) :
    (∃ r s c, Pair.computeSwap o a x = .ok (r, s, c)) ↔
      o ≠ 0 ∧ o * a * 10 ^ 18 < 2 ^ 256 ∧ x * (a * 10 ^ 18 / o) < 2 ^ 256 ∧
      (a * 10 ^ 18 - o * a * 10 ^ 18 / (o + x)) / 10 ^ 18 ≤ x * (a * 10 ^ 18 / o) / 10 ^ 18 ∧
      x * (a * 10 ^ 18 / o) / 10 ^ 18 - (a * 10 ^ 18 - o * a * 10 ^ 18 / (o + x)) / 10 ^ 18 < 2 ^ 128 := by
  constructor
  · rintro ⟨r, s, c, h⟩
    rw [computeSwap_ok_iff ho ha hx] at h
    exact ⟨h.1, h.2.1, h.2.2.1, h.2.2.2.1, h.2.2.2.2.1⟩
  · rintro ⟨h1, h2, h3, h4, h5⟩
    exact ⟨_, _, _, (computeSwap_ok_iff ho ha hx).mpr ⟨h1, h2, h3, h4, h5, rfl, rfl, rfl⟩⟩

/-- **C09 (partial).** A funded pool prices every offer with `o*(o+x) ≤ x*a*10^18` whose value fits
(`o*a*10^18 < 2^256`, `x*a < 2^128 * o`). Missing: offers too small for an 18-digit spot price, and reserves
whose product exceeds about `1.15 * 10^59`; there pricing can panic (`C09_counterexample`). -/
theorem C09_partial (o a x : Nat) (ho : o < 2 ^ 128) (ha : a < 2 ^ 128) (hx : x < 2 ^ 128) (h0 : o ≠ 0)
    (hcp : o * a * 10 ^ 18 < 2 ^ 256) (hv : x * a < 2 ^ 128 * o) (hfine : o * (o + x) ≤ x * a * 10 ^ 18) :
    ∃ r s c, Pair.computeSwap o a x = .ok (r, s, c) := by
  have h1 := gross_le_ideal h0 hfine
  have h2 := ideal_le (o := o) (a := a) (x := x)
  have h3 : idealOf o a x < 2 ^ 128 := Nat.lt_of_mul_lt_mul_right (lt_of_le_of_lt h2 hv)
  have h4 : x * (a * DF / o) < B256 := by
    have : x * (a * DF / o) < (idealOf o a x + 1) * DF := by
      unfold idealOf
      have := Nat.lt_div_mul_add (a := x * (a * DF / o)) DF_pos
      rw [Nat.add_mul, one_mul]; exact this
    have h5 : (idealOf o a x + 1) * DF ≤ 2 ^ 128 * DF := Nat.mul_le_mul_right _ h3
    have h6 : 2 ^ 128 * DF ≤ B256 := by norm_num [DF]
    omega
  exact ⟨_, _, _, (computeSwap_ok_iff ho ha hx).mpr ⟨h0, hcp, h4, h1, lt_of_le_of_lt (Nat.sub_le _ _) h3, rfl, rfl, rfl⟩⟩

/-- A realistic pool: 10^12 of 6-decimals against 10^24 of 18-decimals, offering 10^6. -/
example : (10 ^ 12 : Nat) * 10 ^ 24 * 10 ^ 18 < 2 ^ 256 ∧ 10 ^ 6 * 10 ^ 24 < 2 ^ 128 * 10 ^ 12 ∧
    10 ^ 12 * (10 ^ 12 + 10 ^ 6) ≤ 10 ^ 6 * 10 ^ 24 * 10 ^ 18 := by norm_num

end Halo
