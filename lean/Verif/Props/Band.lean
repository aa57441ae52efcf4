import Verif.Props.Sleep
import Verif.Props.Live
/-! # C118: the band of prices within which trading does not pay -/

namespace Halo
open _root_.Halo.Spec

namespace BandL

/-- Within the band an offer gains less than one unit of what it asks for. -/
theorem inside {o a x r s cm P Q : Nat} (h : Priced o a x r s cm) (hQ : 0 < Q) (hb : 997 * (a * Q) ≤ 1000 * (o * P)) :
    Q * r < P * x + Q := by
  obtain ⟨ho, _, hr, _⟩ := h.form
  have hk := gross_key (o := o) (a := a) (x := x) (by omega)
  have hD : DF = 10 ^ 18 := by norm_num [DF]
  rw [hD] at hk
  generalize grossOf o a x = g at *
  have h1 : 1000 * r ≤ 997 * g + 999 := by omega
  have h2 : 1000 * (Q * r) ≤ 997 * (Q * g) + 999 * Q := by nlinarith
  have hg : 997 * (Q * g) * ((o + x) * 10 ^ 18) ≤ 1000 * (P * x) * ((o + x) * 10 ^ 18) + 997 * Q * (o + x) := by
    calc 997 * (Q * g) * ((o + x) * 10 ^ 18) = 997 * Q * (10 ^ 18 * (o + x) * g) := by ring
      _ ≤ 997 * Q * (10 ^ 18 * a * x + (o + x)) := Nat.mul_le_mul_left _ hk.le
      _ = 997 * (a * Q) * (x * 10 ^ 18) + 997 * Q * (o + x) := by ring
      _ ≤ 1000 * (o * P) * (x * 10 ^ 18) + 997 * Q * (o + x) := Nat.add_le_add_right (Nat.mul_le_mul_right _ hb) _
      _ = 1000 * (P * x) * (o * 10 ^ 18) + 997 * Q * (o + x) := by ring
      _ ≤ _ := Nat.add_le_add_right (Nat.mul_le_mul_left _ (Nat.mul_le_mul_right _ (Nat.le_add_right _ _))) _
  have hg' : 997 * (Q * g) < 1000 * (P * x) + Q := by
    by_contra hc
    have hc := Nat.le_of_not_lt hc
    have := Nat.mul_le_mul_right ((o + x) * 10 ^ 18) hc
    have hp : 0 < Q * (o + x) := Nat.mul_pos hQ (by omega)
    nlinarith
  omega

/-- Outside the band, in a pool that is deep enough, an offer of this size gains. -/
theorem outside {o a r s cm P Q D : Nat} (hP : 0 < P) (hD : D + 1000 * (o * P) = 997 * ((a - 1) * Q))
    (hdeep : 4000 * P * (997 * (Q * o) + 1000 * P) ≤ D ^ 2) (h : Priced o a (D / (2000 * P)) r s cm) :
    P * (D / (2000 * P)) < Q * r := by
  obtain ⟨ho, _, hr, _⟩ := h.form
  have hf := floor_le_gross (o := o) (a := a) (x := D / (2000 * P)) (fun e => ho (Nat.eq_zero_of_add_eq_zero_right e))
  have n1 := Nat.div_mul_le_self D (2000 * P)
  have n2 := Nat.lt_div_mul_add (a := D) (b := 2000 * P) (by omega)
  generalize D / (2000 * P) = n at *
  generalize grossOf o a n = g at *
  have hg := Nat.lt_div_mul_add (a := a * n) (b := o + n) (by omega)
  have hg2 : a * n < (g + 1) * (o + n) := lt_of_lt_of_le hg (by
    rw [Nat.add_mul, Nat.one_mul]
    exact Nat.add_le_add_right (Nat.mul_le_mul_right _ hf) _)
  have h1 : 997 * g ≤ 1000 * r := by omega
  by_contra hc
  have hc := Nat.le_of_not_lt hc
  have h2 : 997 * (Q * g) ≤ 1000 * (P * n) := by nlinarith
  have ha : 1 ≤ a := by
    rcases Nat.eq_zero_or_pos a with e | e
    · exfalso
      subst e
      have hD0 : D = 0 := by simp only [Nat.zero_sub, Nat.zero_mul, Nat.mul_zero] at hD; omega
      subst hD0
      have : 0 < 4000 * P * (997 * (Q * o) + 1000 * P) := by positivity
      omega
    · exact e
  obtain ⟨b, rfl⟩ := Nat.exists_eq_add_of_le' ha
  rw [Nat.add_sub_cancel] at hD
  have h3 : 997 * Q * ((b + 1) * n) ≤ 997 * Q * ((g + 1) * (o + n)) := Nat.mul_le_mul_left _ hg2.le
  have h4 : 997 * (Q * g) * (o + n) ≤ 1000 * (P * n) * (o + n) := Nat.mul_le_mul_right _ h2
  have h5 : D * n ≤ 1000 * P * n ^ 2 + 997 * (Q * o) := by
    have e : (D + 1000 * (o * P)) * n = 997 * (b * Q) * n := by rw [hD]
    nlinarith
  have h6 := Nat.mul_le_mul_left (4000 * P) h5
  obtain ⟨d, hd⟩ := Nat.exists_eq_add_of_le n1
  have hd2 : d < 2000 * P := by omega
  have h7 : d * d < (2000 * P) * (2000 * P) := Nat.mul_lt_mul'' hd2 hd2
  rw [hd] at h6 hdeep
  nlinarith

/-- Within the band the reserves together are worth hardly more than they could be at the same product. -/
theorem worth_band {P Q o a o' a' T T' : Nat} (h : o * a * T' ^ 2 ≤ o' * a' * T ^ 2) (h0 : 997 * (a * Q) ≤ 1000 * (o * P))
    (h1 : 997 * (o * P) ≤ 1000 * (a * Q)) :
    3988000 * ((P * o + Q * a) * T') ^ 2 ≤ 3988009 * ((P * o' + Q * a') * T) ^ 2 := by
  have e1 : 997000 * (P * o + Q * a) ^ 2 ≤ 3988009 * (P * o * (Q * a)) := by
    have h0' : 997 * (Q * a) ≤ 1000 * (P * o) := by rw [Nat.mul_comm Q, Nat.mul_comm P]; exact h0
    have h1' : 997 * (P * o) ≤ 1000 * (Q * a) := by rw [Nat.mul_comm Q, Nat.mul_comm P]; exact h1
    generalize P * o = u at *
    generalize Q * a = v at *
    obtain ⟨d, hd⟩ := Nat.exists_eq_add_of_le h0'
    obtain ⟨e, he⟩ := Nat.exists_eq_add_of_le h1'
    zify at *
    have : (0 : ℤ) ≤ (1000 * u - 997 * v) * (1000 * v - 997 * u) := mul_nonneg (by linarith) (by linarith)
    nlinarith
  have e2 : 4 * (P * o' * (Q * a')) ≤ (P * o' + Q * a') ^ 2 := by
    have := four_mul_le_sq_add (P * o') (Q * a')
    rw [← Nat.mul_assoc]
    exact this
  calc 3988000 * ((P * o + Q * a) * T') ^ 2 = 4 * (997000 * (P * o + Q * a) ^ 2) * T' ^ 2 := by ring
    _ ≤ 4 * (3988009 * (P * o * (Q * a))) * T' ^ 2 := Nat.mul_le_mul_right _ (Nat.mul_le_mul_left _ e1)
    _ = 4 * 3988009 * (P * Q) * (o * a * T' ^ 2) := by ring
    _ ≤ 4 * 3988009 * (P * Q) * (o' * a' * T ^ 2) := Nat.mul_le_mul_left _ h
    _ = 3988009 * (4 * (P * o' * (Q * a'))) * T ^ 2 := by ring
    _ ≤ 3988009 * (P * o' + Q * a') ^ 2 * T ^ 2 := Nat.mul_le_mul_right _ (Nat.mul_le_mul_left _ e2)
    _ = _ := by ring

end BandL

open BandL

/-- **C118.** Let a unit of the asset a trader offers be worth `P` and a unit of the asset they ask for `Q`. If what the pair gives for the
first unit, less the fee, is worth no more than that unit (`0.997 * (ask reserve) / (offer reserve) ≤ P / Q`), then no swap gains as much
as one unit of the asset asked for. -/
theorem C118_inside {c : Chain} (hc : c.Lawful) {w w' : World} (hw : Reachable c w) {k : PairSite} (hk : k.Sound c w) {t : Addr}
    {j : AssetInfo} (hd : k.Dir (.token t) j) {x : Nat} {adv : Adv} {gas : Nat} {S : Addr} (hS : c.IsUser S) {bp ms : Option Nat}
    (h : runTx c adv gas w S (.exec t (.send k.a x (.swap bp ms none)) []) = .ok w') {P Q : Nat} (hQ : 0 < Q)
    (hb : 997 * (held w j k.a * Q) ≤ 1000 * (held w (.token t) k.a * P)) :
    P * held w' (.token t) S + Q * held w' j S < P * held w (.token t) S + Q * held w j S + Q := by
  obtain ⟨r, s, cm, hp, _, e1, e2, _, _, _, e3⟩ := swap_tx hc hw hk hd hS (by simp) h
  simp only [Option.getD_none] at e3
  have key := inside hp hQ hb
  rw [e2, e3]
  obtain ⟨d, hd'⟩ := Nat.exists_eq_add_of_le e1
  rw [hd', Nat.add_sub_cancel_left]
  nlinarith

/-- **C118.** Outside the band, in a pool that is deep enough for the distance, every swap of `D / (2000 * P)` units gains: with the distance
`D = 997 * (a - 1) * Q - 1000 * o * P` from the edge, reserves `o`, `a`, deep enough means `D² ≥ 4000 * P * (997 * Q * o + 1000 * P)`. -/
theorem C118_outside {c : Chain} (hc : c.Lawful) {w w' : World} (hw : Reachable c w) {k : PairSite} (hk : k.Sound c w) {t : Addr}
    {j : AssetInfo} (hd : k.Dir (.token t) j) {adv : Adv} {gas : Nat} {S : Addr} (hS : c.IsUser S) {bp ms : Option Nat} {P Q D : Nat}
    (hP : 0 < P) (hD : D + 1000 * (held w (.token t) k.a * P) = 997 * ((held w j k.a - 1) * Q))
    (hdeep : 4000 * P * (997 * (Q * held w (.token t) k.a) + 1000 * P) ≤ D ^ 2)
    (h : runTx c adv gas w S (.exec t (.send k.a (D / (2000 * P)) (.swap bp ms none)) []) = .ok w') :
    P * held w (.token t) S + Q * held w j S < P * held w' (.token t) S + Q * held w' j S := by
  obtain ⟨r, s, cm, hp, _, e1, e2, _, _, _, e3⟩ := swap_tx hc hw hk hd hS (by simp) h
  simp only [Option.getD_none] at e3
  have key := outside hP hD hdeep hp
  rw [e2, e3]
  obtain ⟨d, hd'⟩ := Nat.exists_eq_add_of_le e1
  rw [hd', Nat.add_sub_cancel_left]
  nlinarith

/-- **C118.** And whoever has that much can make this swap, at a pair of assets with equal decimals whose reserves are not extreme (C56). -/
theorem C118_somebody_gains {c : Chain} (hc : c.Lawful) {w : World} (hw : Reachable c w) {k : PairSite} (hk : k.Sound c w)
    (hf : Fits k w) {t : Addr} {j : AssetInfo} (hd : k.Dir (.token t) j) (adv : Adv) {gas : Nat} (hg : 3 ≤ gas) {S : Addr} (hS : c.IsUser S)
    {P Q D : Nat} (hP : 0 < P) (hD : D + 1000 * (held w (.token t) k.a * P) = 997 * ((held w j k.a - 1) * Q))
    (hdeep : 4000 * P * (997 * (Q * held w (.token t) k.a) + 1000 * P) ≤ D ^ 2)
    (hdec : k.s.assetDecimals.1 = k.s.assetDecimals.2) (hb : D / (2000 * P) ≤ held w (.token t) S) (ho : held w (.token t) k.a ≠ 0)
    (hcp : held w (.token t) k.a * held w j k.a * 10 ^ 18 < 2 ^ 256)
    (hv : D / (2000 * P) * held w j k.a < 2 ^ 128 * held w (.token t) k.a)
    (hfine : held w (.token t) k.a * (held w (.token t) k.a + D / (2000 * P)) ≤ D / (2000 * P) * held w j k.a * 10 ^ 18) :
    ∃ w', runTx c adv gas w S (.exec t (.send k.a (D / (2000 * P)) (.swap none none none)) []) = .ok w' ∧
      P * held w (.token t) S + Q * held w j S < P * held w' (.token t) S + Q * held w' j S := by
  have h0 : 0 < D / (2000 * P) := by
    refine Nat.div_pos ?_ (by omega)
    by_contra hlt
    have h1 : D ^ 2 < (2000 * P) ^ 2 := Nat.pow_lt_pow_left (by omega) (by norm_num)
    have h2 : 4000 * P * (1000 * P) ≤ D ^ 2 := (Nat.mul_le_mul_left _ (Nat.le_add_left _ _)).trans hdeep
    have h3 : (2000 * P) ^ 2 = 4000 * P * (1000 * P) := by ring
    omega
  obtain ⟨w', h⟩ := C56_swap_live (dst := none) hc hw hk hf hS hd adv hg hdec h0 hb (by simp) ho hcp hv hfine
  exact ⟨w', h, C118_outside hc hw hk hd hS hP hD hdeep h⟩

/-- **C118.** From within the band (in both directions) nobody, and not all together, can take more than a millionth or so out of the pair,
whatever they do, in however many steps: what is behind an LP token is worth afterwards at least `√(3988000 / 3988009)` (more than
`1 - 1.13 / 10^6`) of what it was worth before, at the same prices. Excepted are first deposits and swaps that leak (C94). -/
theorem C118_history {c : Chain} (hc : c.Lawful) {w w' : World} (hw : Reachable c w) {tr : List (World × Frame)} (hl : Hist c w tr w')
    {k : PairSite} (hk : k.Sound c w) (hf : ∀ e ∈ k.calls c tr, ¬ First e) (hn : ∀ e ∈ k.calls c tr, ¬ Leak e) {P Q : Nat}
    (h0 : 997 * (held w k.i1 k.a * Q) ≤ 1000 * (held w k.i0 k.a * P)) (h1 : 997 * (held w k.i0 k.a * P) ≤ 1000 * (held w k.i1 k.a * Q)) :
    k.Broken w' ∨ 3988000 * ((P * held w k.i0 k.a + Q * held w k.i1 k.a) * supplyAt w' k.lt) ^ 2 ≤
      3988009 * ((P * held w' k.i0 k.a + Q * held w' k.i1 k.a) * supplyAt w k.lt) ^ 2 := by
  refine (C22_no_leak_partial hc hw hl hk hf hn).imp id fun h => ?_
  simp only [PairSite.pool] at h
  exact worth_band h h0 h1

namespace Demo

/-- The pair holds 10000 and 20000. At prices 1995 and 1000, within the band, 1000 tokens swapped gain nothing. -/
example := C118_inside lawful deployed_reachable sound_AB (t := tA) (j := .token tB) (.inl ⟨rfl, rfl⟩) isUser_user leg1_run
  (P := 1995) (Q := 1000) (by decide) (by decide +kernel)
example := C118_history lawful deployed_reachable trade_hist sound_AB (by rw [trade_calls]; simp [First])
  (by rw [trade_calls]; simp [Leak, Slip]) (P := 1995) (Q := 1000) (by decide +kernel) (by decide +kernel)

/-- At equal prices, far outside the band, the theorem's swap is one of 4969 tokens. -/
def bandSwap : World := worldOf (runTx chain idle 20 deployed user (.exec tA (.send pAB 4969 (.swap none none none)) []))
theorem bandSwap_run : runTx chain idle 20 deployed user (.exec tA (.send pAB 4969 (.swap none none none)) []) = .ok bandSwap :=
  worldOf_eq (by decide +kernel)
example := C118_outside lawful deployed_reachable sound_AB (t := tA) (j := .token tB) (.inl ⟨rfl, rfl⟩) isUser_user
  (P := 1) (Q := 1) (D := 9939003) (by decide) (by decide +kernel) (by decide +kernel) bandSwap_run
example := C118_somebody_gains lawful deployed_reachable sound_AB (fits_of rfl rfl _) (t := tA) (j := .token tB) (.inl ⟨rfl, rfl⟩) idle
  (gas := 3) (by decide) isUser_user (P := 1) (Q := 1) (D := 9939003) (by decide) (by decide +kernel) (by decide +kernel)
  (by decide +kernel) (by decide +kernel) (by decide +kernel) (by decide +kernel) (by decide +kernel) (by decide +kernel)
/-- It pays 6620 for 4969. -/
example : held deployed (.token tA) user = held bandSwap (.token tA) user + 4969 ∧
    held bandSwap (.token tB) user = held deployed (.token tB) user + 6620 := by decide +kernel

end Demo
end Halo
