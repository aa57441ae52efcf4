import Verif.Lemmas.SwapForm
import Mathlib.Tactic.Ring
import Mathlib.Tactic.Linarith
import Mathlib.Tactic.Zify
/-! # Arithmetic of the pricing formulas (helper lemmas) -/

namespace Halo

theorem gross_le_left {o a x : Nat} : grossOf o a x * DF ≤ a * DF - o * a * DF / (o + x) := by
  unfold grossOf; exact Nat.div_mul_le_self _ _

/-- `L + 1` times the new offer reserve exceeds the scaled product. -/
theorem lt_left_succ_mul {o a x : Nat} (h : o + x ≠ 0) :
    o * a * DF < (o * a * DF / (o + x) + 1) * (o + x) := by
  have := Nat.lt_div_mul_add (a := o * a * DF) (b := o + x) (by omega)
  rw [Nat.add_mul, one_mul]; exact this

/-- The output exceeds the ideal curve by less than `10^-18` (scaled by the new reserve). -/
theorem gross_key {o a x : Nat} (h : o + x ≠ 0) :
    DF * (o + x) * grossOf o a x < DF * a * x + (o + x) := by
  have h1 := gross_le_left (o := o) (a := a) (x := x)
  have h2 := lt_left_succ_mul (a := a) h
  have h3 := left_le o a x h
  generalize o * a * DF / (o + x) = L at *
  generalize grossOf o a x = g at *
  have h4 : g * DF + L ≤ a * DF := by omega
  have h5 := Nat.mul_le_mul_right (o + x) h4
  nlinarith

/-- The output is at least the floor of the ideal curve. -/
theorem floor_le_gross {o a x : Nat} (_h : o + x ≠ 0) : a * x / (o + x) ≤ grossOf o a x := by
  unfold grossOf
  rw [Nat.le_div_iff_mul_le DF_pos]
  have hf := Nat.div_mul_le_self (a * x) (o + x)
  have hf' : a * x / (o + x) ≤ a := by
    apply Nat.div_le_of_le_mul
    rw [Nat.mul_comm a x]; exact Nat.mul_le_mul_right _ (by omega)
  generalize a * x / (o + x) = f at *
  have hL : o * a * DF / (o + x) ≤ (a - f) * DF := by
    apply Nat.div_le_of_le_mul
    obtain ⟨d, rfl⟩ := Nat.exists_eq_add_of_le hf'
    rw [Nat.add_sub_cancel_left]
    have : o * (f + d) ≤ (o + x) * d := by nlinarith
    calc o * (f + d) * DF ≤ (o + x) * d * DF := Nat.mul_le_mul_right _ this
      _ = (o + x) * (d * DF) := by ring
  rw [Nat.sub_mul] at hL
  have : f * DF ≤ a * DF := Nat.mul_le_mul_right _ hf'
  omega

theorem gross_le_floor_succ {o a x : Nat} (h : o + x ≠ 0) : grossOf o a x ≤ a * x / (o + x) + 1 := by
  by_contra hc
  have hk := gross_key (a := a) h
  have hf := Nat.lt_div_mul_add (a := a * x) (b := o + x) (by omega)
  generalize a * x / (o + x) = f at *
  have h2 : f + 2 ≤ grossOf o a x := by omega
  generalize grossOf o a x = g at *
  have h3 : DF * (o + x) * (f + 2) ≤ DF * (o + x) * g := Nat.mul_le_mul_left _ h2
  have h4 : DF * (a * x) < DF * (f * (o + x) + (o + x)) := Nat.mul_lt_mul_of_pos_left hf DF_pos
  have h5 : o + x ≤ DF * (o + x) := Nat.le_mul_of_pos_left _ DF_pos
  nlinarith

theorem gross_eq_floor {o a x : Nat} (h : o + x ≠ 0) (hD : o + x ≤ DF) :
    grossOf o a x = a * x / (o + x) := by
  refine le_antisymm ?_ (floor_le_gross h)
  rw [Nat.le_div_iff_mul_le (by omega)]
  have hk := gross_key (a := a) h
  generalize grossOf o a x = g at *
  have h2 : DF * (g * (o + x)) < DF * (a * x + 1) := by nlinarith
  have := Nat.lt_of_mul_lt_mul_left h2
  omega

theorem gross_mono {o a x y : Nat} (ho : o ≠ 0) (h : x ≤ y) : grossOf o a x ≤ grossOf o a y := by
  unfold grossOf
  apply Nat.div_le_div_right
  have : o * a * DF / (o + y) ≤ o * a * DF / (o + x) := Nat.div_le_div_left (by omega) (by omega)
  omega

/-- A deeper offer side never raises the output. -/
theorem gross_anti_offer {o₁ o₂ a x : Nat} (h1 : o₁ ≠ 0) (ho : o₁ ≤ o₂) : grossOf o₂ a x ≤ grossOf o₁ a x := by
  have hL : o₁ * a * DF / (o₁ + x) ≤ o₂ * a * DF / (o₂ + x) := by
    rw [Nat.le_div_iff_mul_le (by omega)]
    have h3 := Nat.div_mul_le_self (o₁ * a * DF) (o₁ + x)
    generalize o₁ * a * DF / (o₁ + x) = L at *
    obtain ⟨d, rfl⟩ := Nat.exists_eq_add_of_le ho
    -- `L ≤ a·DF`
    have hLa : L ≤ a * DF := by
      have h4 : L * (o₁ + x) ≤ a * DF * (o₁ + x) := le_trans h3 (by nlinarith [Nat.zero_le (a * DF * x)])
      exact Nat.le_of_mul_le_mul_right h4 (by omega)
    have := Nat.mul_le_mul_right d hLa
    nlinarith
  unfold grossOf
  exact Nat.div_le_div_right (by omega)

/-- A deeper ask side never lowers the output. -/
theorem gross_mono_ask {o a b x : Nat} (ho : o ≠ 0) (h : a ≤ b) : grossOf o a x ≤ grossOf o b x := by
  obtain ⟨d, rfl⟩ := Nat.exists_eq_add_of_le h
  have h1 : o * (a + d) * DF / (o + x) ≤ o * a * DF / (o + x) + d * DF := by
    have h2 : o * (a + d) * DF ≤ o * a * DF + d * DF * (o + x) := by nlinarith [Nat.zero_le (d * DF * x)]
    calc o * (a + d) * DF / (o + x) ≤ (o * a * DF + d * DF * (o + x)) / (o + x) := Nat.div_le_div_right h2
      _ = o * a * DF / (o + x) + d * DF := Nat.add_mul_div_right _ _ (by omega)
  have h3 : (a + d) * DF = a * DF + d * DF := Nat.add_mul _ _ _
  unfold grossOf
  exact Nat.div_le_div_right (by omega)

/-- Price of `0` is `0`. -/
theorem gross_zero {o a : Nat} (ho : o ≠ 0) : grossOf o a 0 = 0 := by
  unfold grossOf
  have : o * a * DF / (o + 0) = a * DF := by
    rw [Nat.add_zero, Nat.mul_assoc, Nat.mul_div_cancel_left _ (by omega)]
  rw [this]; simp

/-- The product after a swap, when the output is small enough or a commission is charged. -/
theorem product_ok {o a x : Nat} (ho : o ≠ 0)
    (hc : o + x ≤ DF ∨ 334 ≤ grossOf o a x) :
    o * a ≤ (o + x) * (a - (grossOf o a x - 3 * grossOf o a x / 1000)) := by
  have hk := gross_key (o := o) (a := a) (x := x) (by omega)
  have hg := grossOf_le o a x
  generalize grossOf o a x = g at *
  have hr : (o + x) * (g - 3 * g / 1000) ≤ a * x := by
    rcases hc with hc | hc
    · have h2 : DF * ((o + x) * g) < DF * (a * x + 1) := by nlinarith
      have := Nat.lt_of_mul_lt_mul_left h2
      exact le_trans (Nat.mul_le_mul_left _ (Nat.sub_le _ _)) (by omega)
    · have h1 : 1 ≤ 3 * g / 1000 := by omega
      have h2 : (o + x) * (g - 3 * g / 1000) + (o + x) ≤ (o + x) * g := by
        have : g - 3 * g / 1000 + 1 ≤ g := by omega
        calc _ = (o + x) * (g - 3 * g / 1000 + 1) := by ring
          _ ≤ _ := Nat.mul_le_mul_left _ this
      have h3 : DF * ((o + x) * g) < DF * (a * x + (o + x)) := by
        have h5 : o + x ≤ DF * (o + x) := Nat.le_mul_of_pos_left _ DF_pos
        nlinarith
      have := Nat.lt_of_mul_lt_mul_left h3
      omega
  have hrg : g - 3 * g / 1000 ≤ g := Nat.sub_le _ _
  generalize g - 3 * g / 1000 = r at *
  by_cases hra : r ≤ a
  · obtain ⟨d, rfl⟩ := Nat.exists_eq_add_of_le hra
    rw [Nat.add_sub_cancel_left]
    nlinarith
  · omega

/-- A tight bound on how much a swap can lower the product: less than `(o + x) / 10^18`. -/
theorem product_bound {o a x : Nat} (ho : o ≠ 0) :
    o * a * DF < (o + x) * (a - (grossOf o a x - 3 * grossOf o a x / 1000)) * DF + (o + x) := by
  have hk := gross_key (o := o) (a := a) (x := x) (by omega)
  have hg := grossOf_le o a x
  generalize grossOf o a x = g at *
  have hr : g - 3 * g / 1000 ≤ g := Nat.sub_le _ _
  generalize g - 3 * g / 1000 = r at *
  obtain ⟨d, rfl⟩ := Nat.exists_eq_add_of_le (le_trans hr hg)
  rw [Nat.add_sub_cancel_left]
  have : DF * (o + x) * r ≤ DF * (o + x) * g := Nat.mul_le_mul_left _ hr
  nlinarith

/-- Truncations in the spot price can only lower the ideal output. -/
theorem ideal_le {o a x : Nat} : idealOf o a x * o ≤ x * a := by
  unfold idealOf
  have h1 := Nat.div_mul_le_self (a * DF) o
  have h2 := Nat.div_mul_le_self (x * (a * DF / o)) DF
  generalize a * DF / o = p at *
  generalize x * p / DF = i at *
  have h3 : i * DF * o ≤ x * p * o := Nat.mul_le_mul_right _ h2
  have h4 : x * (p * o) ≤ x * (a * DF) := Nat.mul_le_mul_left _ h1
  have h5 : DF * (i * o) ≤ DF * (x * a) := by nlinarith
  exact Nat.le_of_mul_le_mul_left h5 DF_pos

/-- Round trip: the output of the second swap never exceeds the first input. -/
theorem round_trip {o a x : Nat} (ho : o ≠ 0) (hi : grossOf o a x ≤ idealOf o a x) :
    let y := grossOf o a x - 3 * grossOf o a x / 1000
    let g2 := grossOf (a - y) (o + x) y
    a - y ≠ 0 → g2 - 3 * g2 / 1000 ≤ x := by
  intro y g2 h2
  have hg := grossOf_le o a x
  have hk1 := gross_key (o := o) (a := a) (x := x) (by omega)
  have hk2 := gross_key (o := a - y) (a := o + x) (x := y) (by omega)
  have hy : y ≤ grossOf o a x := Nat.sub_le _ _
  have hya : a - y + y = a := by omega
  rw [hya] at hk2
  change DF * a * g2 < DF * (o + x) * y + a at hk2
  by_cases hgx : g2 ≤ x
  · exact le_trans (Nat.sub_le _ _) hgx
  by_cases hy0 : y = 0
  · rw [hy0, Nat.mul_zero, Nat.zero_add] at hk2
    exfalso
    have : DF * a * 1 ≤ DF * a * g2 := Nat.mul_le_mul_left _ (by omega)
    have h5 : a ≤ DF * a := Nat.le_mul_of_pos_left _ DF_pos
    omega
  have hid := ideal_le (o := o) (a := a) (x := x)
  have hi1 : 1 ≤ idealOf o a x := by omega
  have hox : o ≤ x * a := le_trans (by simpa using Nat.mul_le_mul_right o hi1) hid
  obtain ⟨k, hk⟩ := Nat.exists_eq_add_of_le (Nat.le_of_not_le hgx)
  have h3 : DF * (o + x) * y ≤ DF * (o + x) * grossOf o a x := Nat.mul_le_mul_left _ hy
  have h4 : DF * a * g2 < DF * a * x + (o + x) + a := by omega
  rw [hk] at h4
  have h5 : a * (DF * k) < a * (2 * x + 1) := by
    have : x ≤ x * a := Nat.le_mul_of_pos_right _ (by omega)
    nlinarith
  have h6 := Nat.lt_of_mul_lt_mul_left h5
  have hDF : DF = 1000000000000000000 := rfl
  rw [hDF] at h6
  omega

theorem invC_lo : 997 * invC + 193 = 1000 * DF := by norm_num [invC, DF]

theorem grossNeeded_bounds (y : Nat) :
    grossNeeded y * DF ≤ y * invC ∧ y * invC < grossNeeded y * DF + DF := by
  unfold grossNeeded
  exact ⟨Nat.div_mul_le_self _ _, Nat.lt_div_mul_add DF_pos⟩

/-- Swapping the quoted offer returns at most the asked amount. -/
theorem quote_le {o a y : Nat} (_ho : o ≠ 0) (hb : grossNeeded y < a) :
    let g := grossOf o a (quoteOf o a y)
    g - 3 * g / 1000 ≤ y := by
  intro g
  have hN : o + quoteOf o a y = o * a / (a - grossNeeded y) := by
    unfold quoteOf
    have : o ≤ o * a / (a - grossNeeded y) := by
      rw [Nat.le_div_iff_mul_le (by omega)]
      exact Nat.mul_le_mul_left _ (Nat.sub_le _ _)
    omega
  have hNd := Nat.div_mul_le_self (o * a) (a - grossNeeded y)
  rw [← hN] at hNd
  have hg : g ≤ grossNeeded y := by
    have h1 := gross_le_left (o := o) (a := a) (x := quoteOf o a y)
    have h2 : (a - grossNeeded y) * DF ≤ o * a * DF / (o + quoteOf o a y) := by
      rw [Nat.le_div_iff_mul_le (by omega)]
      calc _ = (o + quoteOf o a y) * (a - grossNeeded y) * DF := by ring
        _ ≤ _ := Nat.mul_le_mul_right _ hNd
    change g * DF ≤ _ at h1
    rw [Nat.sub_mul] at h2
    have h3 : g * DF ≤ grossNeeded y * DF := by
      have : grossNeeded y * DF ≤ a * DF := Nat.mul_le_mul_right _ hb.le
      omega
    exact Nat.le_of_mul_le_mul_right h3 DF_pos
  have hb1 := (grossNeeded_bounds y).1
  have hinv := invC_lo
  generalize grossNeeded y = b at *
  have h5 : DF * (997 * b) ≤ DF * (1000 * y) := by
    have : y * (997 * invC) ≤ y * (1000 * DF) := Nat.mul_le_mul_left _ (by omega)
    nlinarith
  have := Nat.le_of_mul_le_mul_left h5 DF_pos
  omega

/-- One unit more than the quoted offer returns at least the asked amount, up to the truncation of `1/(1-fee)`. -/
theorem quote_succ_ge {o a y : Nat} (_ho : o ≠ 0) (hb : grossNeeded y < a) :
    let g := grossOf o a (quoteOf o a y + 1)
    y ≤ g - 3 * g / 1000 + 1 + y / DF ∧ (y ≤ 3000000000000000 → y ≤ g - 3 * g / 1000) := by
  intro g
  have hN : o + quoteOf o a y = o * a / (a - grossNeeded y) := by
    unfold quoteOf
    have : o ≤ o * a / (a - grossNeeded y) := by
      rw [Nat.le_div_iff_mul_le (by omega)]
      exact Nat.mul_le_mul_left _ (Nat.sub_le _ _)
    omega
  have hNd : o * a < (o + quoteOf o a y + 1) * (a - grossNeeded y) := by
    have := Nat.lt_div_mul_add (a := o * a) (b := a - grossNeeded y) (by omega)
    rw [← hN] at this
    rw [Nat.add_mul, one_mul]; exact this
  have hg : grossNeeded y ≤ g := by
    change _ ≤ grossOf o a (quoteOf o a y + 1)
    unfold grossOf
    rw [Nat.le_div_iff_mul_le DF_pos, ← Nat.add_assoc]
    have h2 : o * a * DF / (o + quoteOf o a y + 1) ≤ (a - grossNeeded y) * DF := by
      apply Nat.div_le_of_le_mul
      calc _ ≤ (o + quoteOf o a y + 1) * (a - grossNeeded y) * DF := Nat.mul_le_mul_right _ hNd.le
        _ = _ := by ring
    rw [Nat.sub_mul] at h2
    have : grossNeeded y * DF ≤ a * DF := Nat.mul_le_mul_right _ hb.le
    omega
  have hb2 := (grossNeeded_bounds y).2
  have hinv : invC = 1003009027081243731 := rfl
  have hDF : DF = 1000000000000000000 := rfl
  rw [hinv, hDF] at hb2
  rw [hDF]
  generalize grossNeeded y = b at *
  constructor
  · omega
  · intro hy
    omega

/-- When the spot price is fine enough, the spread does not underflow. -/
theorem gross_le_ideal {o a x : Nat} (ho : o ≠ 0) (h : o * (o + x) ≤ x * a * DF) :
    grossOf o a x ≤ idealOf o a x := by
  unfold idealOf
  rw [Nat.le_div_iff_mul_le DF_pos]
  have hP : a * DF < (a * DF / o + 1) * o := by
    have := Nat.lt_div_mul_add (a := a * DF) (b := o) (by omega)
    rw [Nat.add_mul, one_mul]; exact this
  generalize a * DF / o = p at *
  -- it suffices to compare against the exact curve plus one truncation unit
  have h1 := gross_le_left (o := o) (a := a) (x := x)
  have h2 := lt_left_succ_mul (a := a) (o := o) (x := x) (by omega)
  have h3 := left_le o a x (by omega)
  generalize grossOf o a x = g at *
  generalize o * a * DF / (o + x) = L at *
  have h4 : g * DF + L ≤ a * DF := by omega
  by_contra hc
  have hc' : x * p + 1 ≤ g * DF := by omega
  have h5 : x * p + 1 + L ≤ a * DF := by omega
  -- multiply by `o * (o + x)`
  have h6 : (x * p + 1 + L) * (o * (o + x)) ≤ a * DF * (o * (o + x)) := Nat.mul_le_mul_right _ h5
  have h7 : a * DF + 1 ≤ (p + 1) * o := hP
  have h8 : o * a * DF + 1 ≤ (L + 1) * (o + x) := h2
  have h9 : x * (o + x) * (a * DF + 1) ≤ x * (o + x) * ((p + 1) * o) := Nat.mul_le_mul_left _ h7
  have h10 : o * (o * a * DF + 1) ≤ o * ((L + 1) * (o + x)) := Nat.mul_le_mul_left _ h8
  generalize hA : a * DF = A at *
  have e1 : o * a * DF = o * A := by rw [← hA]; ring
  have e2 : x * a * DF = x * A := by rw [← hA]; ring
  rw [e1] at h10
  rw [e2] at h
  have hx : 0 < x := by
    rcases Nat.eq_zero_or_pos x with rfl | hx
    · simp at h; omega
    · exact hx
  zify at *
  nlinarith

end Halo
