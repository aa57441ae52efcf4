import Verif.Props.Band
import Mathlib.Data.Nat.Sqrt
/-! # C127: the best trade -/

namespace Halo
open _root_.Halo.Spec

namespace BestL

/-- What an offer gains is at most what the curve, less the fee, allows at the best point. -/
theorem most {o a x r s cm P Q L : Nat} (h : Priced o a x r s cm) (hQ : 0 < Q) (hL : L ^ 2 ≤ 3988000 * (P * o * (Q * a))) :
    1000 * (Q * r) + L < 1000 * (P * x) + (1000 * (P * o) + 997 * (Q * a)) + 1000 * Q := by
  obtain ⟨ho, _, hr, _⟩ := h.form
  have hk := gross_key (o := o) (a := a) (x := x) (by omega)
  have hD : DF = 10 ^ 18 := by norm_num [DF]
  rw [hD] at hk
  generalize grossOf o a x = g at *
  have h1 : 1000 * r ≤ 997 * g + 999 := by omega
  have h2 : 1000 * (Q * r) ≤ 997 * (Q * g) + 999 * Q := by nlinarith
  have hn : 0 < o + x := by omega
  -- the arithmetic and the geometric mean of the two terms that depend on the offer
  have hm : L * (o + x) ≤ 1000 * P * (o + x) ^ 2 + 997 * (Q * (o * a)) := by
    by_contra hc
    have hc := Nat.lt_of_not_le hc
    have h3 := Nat.pow_lt_pow_left hc (n := 2) (by norm_num)
    have h4 := four_mul_le_sq_add (1000 * P * (o + x) ^ 2) (997 * (Q * (o * a)))
    have h5 : (L * (o + x)) ^ 2 ≤ 3988000 * (P * o * (Q * a)) * (o + x) ^ 2 := by
      rw [Nat.mul_pow]; exact Nat.mul_le_mul_right _ hL
    have h6 : 4 * (1000 * P * (o + x) ^ 2) * (997 * (Q * (o * a))) = 3988000 * (P * o * (Q * a)) * (o + x) ^ 2 := by ring
    omega
  by_contra hc
  have hc := Nat.le_of_not_lt hc
  have h7 : 1000 * (P * x) + (1000 * (P * o) + 997 * (Q * a)) + Q ≤ 997 * (Q * g) + L := by omega
  have h8 := Nat.mul_le_mul_right ((o + x) * 10 ^ 18) h7
  have h9 := Nat.mul_le_mul_left (997 * Q) hk.le
  have h10 := Nat.mul_le_mul_right (10 ^ 18) hm
  have h11 : 0 < Q * (o + x) := Nat.mul_pos hQ hn
  linarith

/-- The offer that brings the offer reserve to the best point gains that much, but for rounding. -/
theorem least {o a x r s cm P Q U : Nat} (h : Priced o a x r s cm) (hP : 0 < P) (hx : 0 < x)
    (h1 : 997 * (Q * (o * a)) ≤ 1000 * (P * (o + x) ^ 2)) (h2 : 1000 * (P * (o + x - 1) ^ 2) ≤ 997 * (Q * (o * a)))
    (hU : 3988000 * (P * o * (Q * a)) ≤ U ^ 2) :
    1000 * (P * x) + (1000 * (P * o) + 997 * (Q * a)) ≤ 1000 * (Q * r) + U + 1000 * P + 997 * Q := by
  obtain ⟨ho, _, hr, _⟩ := h.form
  have hf := floor_le_gross (o := o) (a := a) (x := x) (by omega)
  generalize grossOf o a x = g at *
  have hg := Nat.lt_div_mul_add (a := a * x) (b := o + x) (by omega)
  have hg2 : a * x < (g + 1) * (o + x) := lt_of_lt_of_le hg (by
    rw [Nat.add_mul, Nat.one_mul]
    exact Nat.add_le_add_right (Nat.mul_le_mul_right _ hf) _)
  have h3 : 997 * g ≤ 1000 * r := by omega
  have h4 : 997 * (Q * g) ≤ 1000 * (Q * r) := by nlinarith
  have hn : 0 < o + x := by omega
  have hm : 1000 * (P * (o + x) ^ 2) + 997 * (Q * (o * a)) ≤ U * (o + x) + 1000 * P := by
    obtain ⟨n, hn'⟩ : ∃ n, o + x = n + 1 := ⟨o + x - 1, by omega⟩
    rw [hn'] at h1 h2 ⊢
    rw [Nat.add_sub_cancel] at h2
    have e : 3988000 * (P * o * (Q * a)) = 4000 * P * (997 * (Q * (o * a))) := by ring
    rw [e] at hU
    generalize 997 * (Q * (o * a)) = A at *
    by_contra hc
    have hc := Nat.lt_of_not_le hc
    zify at *
    have h5 : ((U : ℤ) * (n + 1)) ^ 2 < (1000 * (P * (n + 1) ^ 2) + A - 1000 * P) ^ 2 :=
      pow_lt_pow_left₀ (by linarith) (by positivity) (by norm_num)
    have h6 : 4000 * (P : ℤ) * A * (n + 1) ^ 2 ≤ (U * (n + 1)) ^ 2 := by
      rw [mul_pow]; exact mul_le_mul_of_nonneg_right hU (by positivity)
    have h7 : (P : ℤ) * (n + 1) ^ 2 ≤ P * (n + 2) ^ 2 :=
      mul_le_mul_of_nonneg_left (pow_le_pow_left₀ (by positivity) (by linarith) 2) (by positivity)
    have h8 : (0 : ℤ) ≤ (A - 1000 * (P * n ^ 2)) * (1000 * (P * (n + 2) ^ 2) - A) := mul_nonneg (by linarith) (by linarith)
    have h9 : (A - 1000 * (P * n ^ 2)) * (1000 * (P * (n + 2) ^ 2) - A) =
        4000 * (P : ℤ) * A * (n + 1) ^ 2 - (1000 * (P * (n + 1) ^ 2) + A - 1000 * P) ^ 2 := by ring
    linarith
  by_contra hc
  have hc := Nat.lt_of_not_le hc
  have h8 : 1000 * (Q * r) + U + 1000 * P + 997 * Q + 1 ≤ 1000 * (P * x) + (1000 * (P * o) + 997 * (Q * a)) := hc
  have h9 := Nat.mul_le_mul_right (o + x) h8
  have h10 := Nat.mul_le_mul_right (o + x) h4
  have h11 := Nat.mul_le_mul_left (997 * Q) hg2.le
  have h12 : 1000 * P ≤ 1000 * P * (o + x) := Nat.le_mul_of_pos_right _ hn
  linarith

end BestL

open BestL

/-- **C127.** Let a unit of the asset a trader offers be worth `P` and a unit of the asset they ask for `Q`, and the pair hold `o` and `a` of
them. No swap, of whatever amount, gains its sender as much as `P * o + 0.997 * Q * a - 2 * √(0.997 * P * o * Q * a)` and one unit of the asset
asked for. (Both sides are times 1000; `L` is any number up to 2000 times the root.) -/
theorem C127_most {c : Chain} (hc : c.Lawful) {w w' : World} (hw : Reachable c w) {k : PairSite} (hk : k.Sound c w) {t : Addr}
    {j : AssetInfo} (hd : k.Dir (.token t) j) {x : Nat} {adv : Adv} {gas : Nat} {S : Addr} (hS : c.IsUser S) {bp ms : Option Nat}
    (h : runTx c adv gas w S (.exec t (.send k.a x (.swap bp ms none)) []) = .ok w') {P Q L : Nat} (hQ : 0 < Q)
    (hL : L ^ 2 ≤ 3988000 * (P * held w (.token t) k.a * (Q * held w j k.a))) :
    1000 * (P * held w' (.token t) S + Q * held w' j S) + L < 1000 * (P * held w (.token t) S + Q * held w j S) +
      (1000 * (P * held w (.token t) k.a) + 997 * (Q * held w j k.a)) + 1000 * Q := by
  obtain ⟨r, s, cm, hp, _, e1, e2, _, _, _, e3⟩ := swap_tx hc hw hk hd hS (by simp) h
  simp only [Option.getD_none] at e3
  have key := most hp hQ hL
  rw [e2, e3]
  obtain ⟨d, hd'⟩ := Nat.exists_eq_add_of_le e1
  rw [hd', Nat.add_sub_cancel_left]
  linarith

/-- **C127.** The swap that brings the offer reserve to `√(0.997 * Q * o * a / P)`, rounded up, gains that much, less at most one unit of either
asset. -/
theorem C127_attained {c : Chain} (hc : c.Lawful) {w w' : World} (hw : Reachable c w) {k : PairSite} (hk : k.Sound c w) {t : Addr}
    {j : AssetInfo} (hd : k.Dir (.token t) j) {x : Nat} (hx : 0 < x) {adv : Adv} {gas : Nat} {S : Addr} (hS : c.IsUser S) {bp ms : Option Nat}
    (h : runTx c adv gas w S (.exec t (.send k.a x (.swap bp ms none)) []) = .ok w') {P Q U : Nat} (hP : 0 < P)
    (h1 : 997 * (Q * (held w (.token t) k.a * held w j k.a)) ≤ 1000 * (P * (held w (.token t) k.a + x) ^ 2))
    (h2 : 1000 * (P * (held w (.token t) k.a + x - 1) ^ 2) ≤ 997 * (Q * (held w (.token t) k.a * held w j k.a)))
    (hU : 3988000 * (P * held w (.token t) k.a * (Q * held w j k.a)) ≤ U ^ 2) :
    1000 * (P * held w (.token t) S + Q * held w j S) + (1000 * (P * held w (.token t) k.a) + 997 * (Q * held w j k.a)) ≤
      1000 * (P * held w' (.token t) S + Q * held w' j S) + U + 1000 * P + 997 * Q := by
  obtain ⟨r, s, cm, hp, _, e1, e2, _, _, _, e3⟩ := swap_tx hc hw hk hd hS (by simp) h
  simp only [Option.getD_none] at e3
  have key := least hp hP hx h1 h2 hU
  rw [e2, e3]
  obtain ⟨d, hd'⟩ := Nat.exists_eq_add_of_le e1
  rw [hd', Nat.add_sub_cancel_left]
  linarith

/-- **C127.** So it is the best one: no other swap of the same asset, from the same state, leaves its sender better off by as much as one unit of
the asset offered and two of the asset asked for. -/
theorem C127_best {c : Chain} (hc : c.Lawful) {w w1 w2 : World} (hw : Reachable c w) {k : PairSite} (hk : k.Sound c w) {t : Addr}
    {j : AssetInfo} (hd : k.Dir (.token t) j) {S : Addr} (hS : c.IsUser S) {P Q : Nat} (hP : 0 < P) (hQ : 0 < Q)
    {x : Nat} (hx : 0 < x) {adv : Adv} {gas : Nat} {bp ms : Option Nat}
    (h1 : 997 * (Q * (held w (.token t) k.a * held w j k.a)) ≤ 1000 * (P * (held w (.token t) k.a + x) ^ 2))
    (h2 : 1000 * (P * (held w (.token t) k.a + x - 1) ^ 2) ≤ 997 * (Q * (held w (.token t) k.a * held w j k.a)))
    (hb : runTx c adv gas w S (.exec t (.send k.a x (.swap bp ms none)) []) = .ok w1)
    {y : Nat} {adv' : Adv} {gas' : Nat} {bp' ms' : Option Nat}
    (ho : runTx c adv' gas' w S (.exec t (.send k.a y (.swap bp' ms' none)) []) = .ok w2) :
    P * held w2 (.token t) S + Q * held w2 j S < P * held w1 (.token t) S + Q * held w1 j S + P + 2 * Q := by
  generalize hN : 3988000 * (P * held w (.token t) k.a * (Q * held w j k.a)) = N at *
  have hL := C127_most hc hw hk hd hS ho (L := N.sqrt) hQ (by rw [hN]; exact Nat.sqrt_le' N)
  have hU := C127_attained hc hw hk hd hx hS hb (U := N.sqrt + 1) hP h1 h2 (by rw [hN]; exact (Nat.lt_succ_sqrt' N).le)
  omega

/-- **C127.** Such a swap there always is, when the price is outside the band by a unit; and whoever has that much can make it, at a pair of assets
with equal decimals whose reserves are not extreme (C56). -/
theorem C127_somebody {c : Chain} (hc : c.Lawful) {w : World} (hw : Reachable c w) {k : PairSite} (hk : k.Sound c w)
    (hf : Fits k w) {t : Addr} {j : AssetInfo} (hd : k.Dir (.token t) j) (adv : Adv) {gas : Nat} (hg : 3 ≤ gas) {S : Addr} (hS : c.IsUser S)
    {P Q : Nat} (hP : 0 < P) (ho : held w (.token t) k.a ≠ 0)
    (hout : 1000 * (P * held w (.token t) k.a) < 997 * (Q * held w j k.a))
    (hdec : k.s.assetDecimals.1 = k.s.assetDecimals.2) (hcp : held w (.token t) k.a * held w j k.a * 10 ^ 18 < 2 ^ 256) :
    ∃ x, 0 < x ∧ 997 * (Q * (held w (.token t) k.a * held w j k.a)) ≤ 1000 * (P * (held w (.token t) k.a + x) ^ 2) ∧
      1000 * (P * (held w (.token t) k.a + x - 1) ^ 2) ≤ 997 * (Q * (held w (.token t) k.a * held w j k.a)) ∧
      (x ≤ held w (.token t) S → x * held w j k.a < 2 ^ 128 * held w (.token t) k.a →
        held w (.token t) k.a * (held w (.token t) k.a + x) ≤ x * held w j k.a * 10 ^ 18 →
        ∃ w', runTx c adv gas w S (.exec t (.send k.a x (.swap none none none)) []) = .ok w') := by
  generalize hO : held w (.token t) k.a = o at *
  generalize hA : held w j k.a = a at *
  generalize hN : 997 * (Q * (o * a)) = N at *
  obtain ⟨s, hs⟩ : ∃ s, s = (N / (1000 * P)).sqrt := ⟨_, rfl⟩
  have hp : 0 < 1000 * P := by omega
  have hos : o ≤ s := by
    rw [hs, Nat.le_sqrt', Nat.le_div_iff_mul_le hp, ← hN]
    have := Nat.mul_le_mul_left o hout.le
    linarith
  have hlo : 1000 * (P * s ^ 2) ≤ N := by
    have h1 := Nat.sqrt_le' (N / (1000 * P))
    rw [← hs] at h1
    have := Nat.mul_le_mul_left (1000 * P) h1
    have := Nat.mul_div_le N (1000 * P)
    linarith
  have hhi : N ≤ 1000 * (P * (s + 1) ^ 2) := by
    have h1 := Nat.lt_succ_sqrt' (N / (1000 * P))
    rw [← hs] at h1
    have h2 := (Nat.div_lt_iff_lt_mul hp).mp h1
    linarith
  obtain ⟨d, rfl⟩ := Nat.exists_eq_add_of_le hos
  refine ⟨d + 1, by omega, hhi, by rwa [show o + (d + 1) - 1 = o + d by omega], fun hb hv hfine => ?_⟩
  exact C56_swap_live (dst := none) hc hw hk hf hS hd adv hg hdec (by omega) hb (by simp) (by rw [hO]; exact ho) (by rw [hO, hA]; exact hcp)
    (by rw [hO, hA]; exact hv) (by rw [hO, hA]; exact hfine)

namespace Demo

/-- The pair holds 10000 and 20000. At equal prices the best swap is one of 4121 tokens, bringing the reserve to 14121. -/
def bestSwap : World := worldOf (runTx chain idle 20 deployed user (.exec tA (.send pAB 4121 (.swap none none none)) []))
theorem bestSwap_run : runTx chain idle 20 deployed user (.exec tA (.send pAB 4121 (.swap none none none)) []) = .ok bestSwap :=
  worldOf_eq (by decide +kernel)
example := C127_most lawful deployed_reachable sound_AB (t := tA) (j := .token tB) (.inl ⟨rfl, rfl⟩) isUser_user bandSwap_run
  (P := 1) (Q := 1) (L := 28241812) (by decide) (by decide +kernel)
example := C127_attained lawful deployed_reachable sound_AB (t := tA) (j := .token tB) (.inl ⟨rfl, rfl⟩) (by decide) isUser_user bestSwap_run
  (P := 1) (Q := 1) (U := 28241813) (by decide) (by decide +kernel) (by decide +kernel) (by decide +kernel)
example := C127_best lawful deployed_reachable sound_AB (t := tA) (j := .token tB) (.inl ⟨rfl, rfl⟩) isUser_user (P := 1) (Q := 1) (by decide)
  (by decide) (by decide) (by decide +kernel) (by decide +kernel) bestSwap_run bandSwap_run
example := C127_somebody lawful deployed_reachable sound_AB (fits_of rfl rfl _) (t := tA) (j := .token tB) (.inl ⟨rfl, rfl⟩) idle
  (gas := 3) (by decide) isUser_user (P := 1) (Q := 1) (by decide) (by decide +kernel) (by decide +kernel) (by decide +kernel)
  (by decide +kernel)
/-- It pays 5819 for 4121 and gains 1698, the bound being 10000 + 19940 - 28241.8; the swap of C118 gains 1651. -/
example : held deployed (.token tA) user = held bestSwap (.token tA) user + 4121 ∧
    held bestSwap (.token tB) user = held deployed (.token tB) user + 5819 := by decide +kernel

/-- The bound is one for a single swap. Three swaps of together 4121 pay 5821 (as the fee stays in the pair; see C71), and gain more than any
one swap can. -/
def thirds : World := worldOf (do
  let w1 ← runTx chain idle 20 deployed user (.exec tA (.send pAB 1373 (.swap none none none)) [])
  let w2 ← runTx chain idle 20 w1 user (.exec tA (.send pAB 1374 (.swap none none none)) [])
  runTx chain idle 20 w2 user (.exec tA (.send pAB 1374 (.swap none none none)) []))
example : held deployed (.token tA) user = held thirds (.token tA) user + 4121 ∧
    held thirds (.token tB) user = held deployed (.token tB) user + 5821 := by decide +kernel

end Demo
end Halo
