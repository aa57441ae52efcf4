import Verif.Props.Best
import Verif.Props.Fees
import Verif.Props.Price
import Mathlib.Algebra.Order.Ring.Pow
import Mathlib.Algebra.Order.Field.Rat
import Mathlib.Algebra.Order.Field.Basic
import Mathlib.Tactic.FieldSimp
/-! # C128: what splitting a trade can gain at most -/

namespace Halo
open _root_.Halo.Spec

/-- A swap of the first asset, or a deposit. -/
def Into0 : Pool × Call → Prop
  | (_, .swap0 _) | (_, .deposit _ _) => True
  | _ => False

/-- A swap of the second asset, or a deposit. -/
def Into1 : Pool × Call → Prop
  | (_, .swap1 _) | (_, .deposit _ _) => True
  | _ => False

/-- How many of the calls are swaps. -/
def swapsOf (cs : List (Pool × Call)) : Nat := cs.countP fun e => match e.2 with
  | .swap0 _ | .swap1 _ => true
  | _ => false

namespace SliceL

/-- The geometric mean of `i` ones and `n` times `u` is at most their arithmetic mean. -/
theorem mean {u : ℚ} (hu : 0 < u) {i : ℕ} (hi : 0 < i) : ∀ n : ℕ, u ^ n ≤ ((i + n * u) / (i + n)) ^ (n + i)
  | 0 => by
    have : (i : ℚ) ≠ 0 := by exact_mod_cast hi.ne'
    simp [this]
  | n + 1 => by
    have ih := mean hu hi n
    have hi' : (0 : ℚ) < i := by exact_mod_cast hi
    have hn : (0 : ℚ) < i + n := by positivity
    have hn' : (0 : ℚ) < i + 1 + n := by positivity
    obtain ⟨M, hM⟩ : ∃ M : ℚ, M = (i + n * u) / (i + n) := ⟨_, rfl⟩
    obtain ⟨M', hM'⟩ : ∃ M' : ℚ, M' = (i + (n + 1 : ℕ) * u) / (i + (n + 1 : ℕ)) := ⟨_, rfl⟩
    have h0 : 0 < M := by rw [hM]; positivity
    have h0' : 0 < M' := by rw [hM']; positivity
    rw [← hM] at ih
    rw [← hM']
    have e : M' * (i + 1 + n) = M * (i + n) + u := by
      have e1 : M' * (i + 1 + n) = i + (n + 1) * u := by
        rw [hM']; push_cast
        rw [show (i : ℚ) + (n + 1) = i + 1 + n by ring]
        exact div_mul_cancel₀ _ hn'.ne'
      have e2 : M * (i + n) = i + n * u := by rw [hM]; exact div_mul_cancel₀ _ hn.ne'
      rw [e1, e2]; ring
    have hb := one_add_mul_le_pow (a := M' / M - 1) (by have := div_pos h0' h0; linarith) (n + i + 1)
    rw [show 1 + (M' / M - 1) = M' / M by ring, div_pow] at hb
    have hb' : u / M ≤ M' ^ (n + i + 1) / M ^ (n + i + 1) := by
      refine le_trans (le_of_eq ?_) hb
      push_cast
      have : u = M' * (i + 1 + n) - M * (i + n) := by linarith
      rw [this]
      field_simp
      ring
    rw [div_le_div_iff₀ h0 (by positivity)] at hb'
    have h1 : u * M ^ (n + i) ≤ M' ^ (n + i + 1) := by
      rw [pow_succ M (n + i), ← mul_assoc] at hb'
      exact le_of_mul_le_mul_right hb' h0
    rw [show n + 1 + i = n + i + 1 by omega]
    calc u ^ (n + 1) = u * u ^ n := by ring
      _ ≤ u * M ^ (n + i) := mul_le_mul_of_nonneg_left ih hu.le
      _ ≤ _ := h1

/-- One step: a reserve that falls by no more than the fee allows. -/
theorem step_pow {e B A o n : ℕ} (ho : 0 < o) (hon : o ≤ n) (h : B * (3 * n + e * o) ≤ A * ((3 + e) * n)) :
    B ^ (e + 3) * o ^ e ≤ A ^ (e + 3) * n ^ e := by
  have hn : (0 : ℚ) < n := by exact_mod_cast lt_of_lt_of_le ho hon
  have ho' : (0 : ℚ) < o := by exact_mod_cast ho
  have hm := mean (u := (o : ℚ) / n) (by positivity) (i := 3) (by norm_num) e
  push_cast at hm
  obtain ⟨m, hm'⟩ : ∃ m : ℚ, m = (3 + e * ((o : ℚ) / n)) / (3 + e) := ⟨_, rfl⟩
  rw [← hm'] at hm
  have h0 : 0 ≤ m := by rw [hm']; positivity
  have he : (0 : ℚ) < 3 + e := by positivity
  have h1 : (B : ℚ) * m ≤ A := by
    have hq : (B : ℚ) * (3 * n + e * o) ≤ A * ((3 + e) * n) := by exact_mod_cast h
    have : m * ((3 + e) * n) = 3 * n + e * o := by
      rw [hm']; field_simp
    rw [← this, ← mul_assoc] at hq
    exact le_of_mul_le_mul_right hq (by positivity)
  have h2 : ((B : ℚ) * m) ^ (e + 3) ≤ A ^ (e + 3) := pow_le_pow_left₀ (by positivity) h1 _
  have h3 : (B : ℚ) ^ (e + 3) * ((o : ℚ) / n) ^ e ≤ A ^ (e + 3) := by
    rw [mul_pow] at h2
    exact le_trans (mul_le_mul_of_nonneg_left hm (by positivity)) h2
  rw [div_pow, ← mul_div_assoc, div_le_iff₀ (by positivity)] at h3
  exact_mod_cast h3

/-- What a swap leaves of the asset asked for. -/
theorem leaves {o a x : Nat} (ho : o ≠ 0) (hr : payout o a x ≤ a) (N : Nat) :
    (a + N) * (3 * (o + x) + 997 * o) ≤ (a - payout o a x + (N + 1)) * ((3 + 997) * (o + x)) := by
  have hk := gross_key (o := o) (a := a) (x := x) (by omega)
  have hD : DF = 10 ^ 18 := by norm_num [DF]
  rw [hD] at hk
  have hp : payout o a x = grossOf o a x - 3 * grossOf o a x / 1000 := by unfold payout; rw [gross_eq]
  generalize payout o a x = r at *
  generalize grossOf o a x = g at *
  have h1 : 1000 * r ≤ 997 * g + 999 := by omega
  obtain ⟨b, rfl⟩ := Nat.exists_eq_add_of_le hr
  rw [Nat.add_sub_cancel_left]
  have h2 := Nat.mul_le_mul_right ((o + x) * 10 ^ 18) h1
  by_contra hc
  have hc := Nat.lt_of_not_le hc
  have h3 : (b + (N + 1)) * ((3 + 997) * (o + x)) * 10 ^ 18 < (r + b + N) * (3 * (o + x) + 997 * o) * 10 ^ 18 := by omega
  have h4 : N * o ≤ N * (o + x) := Nat.mul_le_mul_left _ (Nat.le_add_right _ _)
  have h5 : 0 < o + x := by omega
  nlinarith

theorem path0 {p q : Pool} {cs : List (Pool × Call)} (h : Path p cs q) (hs : ∀ e ∈ cs, Into0 e) :
    ∀ N, (p.r1 + N) ^ 1000 * p.r0 ^ 997 ≤ (q.r1 + (N + swapsOf cs)) ^ 1000 * q.r0 ^ 997 := by
  induction h with
  | done p q h =>
    intro N
    exact Nat.mul_le_mul (Nat.pow_le_pow_left (Nat.add_le_add h.r1 (by omega)) _) (Nat.pow_le_pow_left h.r0 _)
  | call p b q r l rest h1 h2 h3 ih =>
    intro N
    have ih := ih fun e he => hs e (List.mem_cons_of_mem _ he)
    have hl := hs (b, l) List.mem_cons_self
    refine le_trans (Nat.mul_le_mul (Nat.pow_le_pow_left (Nat.add_le_add_right h1.r1 N) _) (Nat.pow_le_pow_left h1.r0 _)) ?_
    cases h2 with
    | swap0 _ x ho h =>
      have := step_pow (e := 997) (Nat.pos_of_ne_zero ho) (Nat.le_add_right b.r0 x) (leaves ho h N)
      refine le_trans this (le_trans (ih (N + 1)) (le_of_eq ?_))
      rw [show swapsOf ((b, .swap0 x) :: rest) = swapsOf rest + 1 by simp [swapsOf], Nat.add_assoc N, Nat.add_comm 1]
    | deposit _ d0 d1 | init _ d0 d1 =>
      refine le_trans (Nat.mul_le_mul (Nat.pow_le_pow_left (Nat.add_le_add_right (Nat.le_add_right _ d1) N) _)
        (Nat.pow_le_pow_left (Nat.le_add_right _ d0) _)) (le_trans (ih N) (le_of_eq ?_))
      rw [show swapsOf ((b, .deposit d0 d1) :: rest) = swapsOf rest by simp [swapsOf]]
    | swap1 | withdraw => exact hl.elim

theorem path1 {p q : Pool} {cs : List (Pool × Call)} (h : Path p cs q) (hs : ∀ e ∈ cs, Into1 e) :
    ∀ N, (p.r0 + N) ^ 1000 * p.r1 ^ 997 ≤ (q.r0 + (N + swapsOf cs)) ^ 1000 * q.r1 ^ 997 := by
  induction h with
  | done p q h =>
    intro N
    exact Nat.mul_le_mul (Nat.pow_le_pow_left (Nat.add_le_add h.r0 (by omega)) _) (Nat.pow_le_pow_left h.r1 _)
  | call p b q r l rest h1 h2 h3 ih =>
    intro N
    have ih := ih fun e he => hs e (List.mem_cons_of_mem _ he)
    have hl := hs (b, l) List.mem_cons_self
    refine le_trans (Nat.mul_le_mul (Nat.pow_le_pow_left (Nat.add_le_add_right h1.r0 N) _) (Nat.pow_le_pow_left h1.r1 _)) ?_
    cases h2 with
    | swap1 _ x ho h =>
      have := step_pow (e := 997) (Nat.pos_of_ne_zero ho) (Nat.le_add_right b.r1 x) (leaves ho h N)
      refine le_trans this (le_trans (ih (N + 1)) (le_of_eq ?_))
      rw [show swapsOf ((b, .swap1 x) :: rest) = swapsOf rest + 1 by simp [swapsOf], Nat.add_assoc N, Nat.add_comm 1]
    | deposit _ d0 d1 | init _ d0 d1 =>
      refine le_trans (Nat.mul_le_mul (Nat.pow_le_pow_left (Nat.add_le_add_right (Nat.le_add_right _ d0) N) _)
        (Nat.pow_le_pow_left (Nat.le_add_right _ d1) _)) (le_trans (ih N) (le_of_eq ?_))
      rw [show swapsOf ((b, .deposit d0 d1) :: rest) = swapsOf rest by simp [swapsOf]]
    | swap0 | withdraw => exact hl.elim

theorem swaps_all {c : Chain} (hc : c.Lawful) {k : PairSite} {t : Addr} {j : AssetInfo} (hd : k.Dir (.token t) j) {adv : Adv} {gas : Nat} {S : Addr}
    (hS : c.IsUser S) {xs : List Nat} {w w' : World} (hw : Reachable c w) (hk : k.Sound c w) (h : swapAll c adv gas k S t w xs = .ok w') (N : Nat) :
    ∃ R, held w j k.a = held w' j k.a + R ∧ held w' j S = held w j S + R ∧
      (held w j k.a + N) ^ 1000 * held w (.token t) k.a ^ 997 ≤
        (held w' j k.a + (N + xs.length)) ^ 1000 * (held w (.token t) k.a + xs.sum) ^ 997 := by
  induction xs generalizing w N with
  | nil => cases h; exact ⟨0, by simp⟩
  | cons x t' ih =>
    simp only [swapAll, List.foldlM_cons, bind_eq_ok] at h
    obtain ⟨v, h1, h2⟩ := h
    obtain ⟨r, s, cm, hp, hkv, e1, e2, e3, e4, e5, e6⟩ := swap_tx hc hw hk hd hS (by simp) h1
    obtain ⟨R, f1, f2, f3⟩ := ih (.step _ _ hw (.tx _ _ _ _ _ _ hS h1)) hkv h2 (N + 1)
    obtain ⟨ho, _, hr, _⟩ := hp.form
    have hr' : r = payout (held w (.token t) k.a) (held w j k.a) x := by rw [hr]; unfold payout; rw [gross_eq]
    simp only [Option.getD_none] at e6
    refine ⟨r + R, by omega, by omega, ?_⟩
    have := step_pow (e := 997) (Nat.pos_of_ne_zero ho) (Nat.le_add_right (held w (.token t) k.a) x) (leaves ho (hr' ▸ e4) N)
    rw [← hr', ← e5, ← e3] at this
    refine le_trans this (le_trans f3 (le_of_eq ?_))
    rw [e3, List.sum_cons, List.length_cons, Nat.add_assoc _ x, Nat.add_assoc N, Nat.add_comm 1]

end SliceL
open SliceL

/-- **C128.** However sales of the first asset to a pair are cut up, whoever makes them, with whatever deposits and gifts in between: what is left
of the second asset falls no faster than the power 0.997 of the first reserve rises, `y * x ^ 0.997` does not fall, but for one unit of the second
asset per swap. -/
theorem C128_sales0 {c : Chain} (hc : c.Lawful) {w w' : World} (hw : Reachable c w) {tr : List (World × Frame)} (hl : Hist c w tr w')
    {k : PairSite} (hk : k.Sound c w) (hs : ∀ e ∈ k.calls c tr, Into0 e) :
    k.Broken w' ∨ held w k.i1 k.a ^ 1000 * held w k.i0 k.a ^ 997 ≤
      (held w' k.i1 k.a + swapsOf (k.calls c tr)) ^ 1000 * held w' k.i0 k.a ^ 997 := by
  rcases C21_constant_product hc hw hl hk with h | ⟨_, h⟩
  · exact .inl h
  · have := path0 h hs 0
    rw [Nat.zero_add, Nat.add_zero] at this
    exact .inr this

/-- **C128.** The same for sales of the second asset. -/
theorem C128_sales1 {c : Chain} (hc : c.Lawful) {w w' : World} (hw : Reachable c w) {tr : List (World × Frame)} (hl : Hist c w tr w')
    {k : PairSite} (hk : k.Sound c w) (hs : ∀ e ∈ k.calls c tr, Into1 e) :
    k.Broken w' ∨ held w k.i0 k.a ^ 1000 * held w k.i1 k.a ^ 997 ≤
      (held w' k.i0 k.a + swapsOf (k.calls c tr)) ^ 1000 * held w' k.i1 k.a ^ 997 := by
  rcases C21_constant_product hc hw hl hk with h | ⟨_, h⟩
  · exact .inl h
  · have := path1 h hs 0
    rw [Nat.zero_add, Nat.add_zero] at this
    exact .inr this

/-- **C128.** So of a sale of `X` that they split into `n` swaps one gets at most `a * (1 - (o / (o + X)) ^ 0.997) + n` in all, where `o` and `a` are
the reserves before. (A single swap gets `0.997 * a * (1 - o / (o + X))`, C04.) -/
theorem C128_split {c : Chain} (hc : c.Lawful) {w w' : World} (hw : Reachable c w) {k : PairSite} (hk : k.Sound c w) {t : Addr}
    {j : AssetInfo} (hd : k.Dir (.token t) j) {xs : List Nat} {adv : Adv} {gas : Nat} {S : Addr} (hS : c.IsUser S)
    (h : swapAll c adv gas k S t w xs = .ok w') {R : Nat} (hR : held w' j S = held w j S + R) :
    R ≤ held w j k.a ∧ held w j k.a ^ 1000 * held w (.token t) k.a ^ 997 ≤
      (held w j k.a - R + xs.length) ^ 1000 * (held w (.token t) k.a + xs.sum) ^ 997 := by
  obtain ⟨R', f1, f2, f3⟩ := swaps_all hc hd hS hw hk h 0
  obtain rfl : R = R' := by omega
  rw [Nat.zero_add, Nat.add_zero] at f3
  refine ⟨by omega, ?_⟩
  rwa [show held w j k.a - R = held w' j k.a by omega]

namespace Demo

example := C128_sales0 lawful deployed_reachable (hist_runs oneWay_run) sound_AB (by rw [oneWay_calls]; simp [Into0])
/-- A swap of the second token with a deposit before it. -/
def addSell : List CosmosMsg :=
  [approve tA pAB, approve tB pAB, .exec pAB (.provideLiquidity (⟨.token tA, 500⟩, ⟨.token tB, 1000⟩) none none) [],
   .exec tB (.send pAB 2000 (.swap none none none)) []]
def addSold : World := worldOf (runs addSell night)
theorem addSold_run : runs addSell night = .ok addSold := worldOf_eq (by decide +kernel)
theorem addSold_calls : siteAB.calls chain (traces addSell night) =
    [(⟨10000, 20000, 14142⟩, .deposit 500 1000), (⟨10500, 21000, 14849⟩, .swap1 2000)] := by decide +kernel
example := C128_sales1 lawful night_reachable (hist_runs addSold_run) sound_night (by rw [addSold_calls]; simp [Into1])
/-- The six portions of C71 pay 1815, two more than one swap; the bound is 1813.0 and 6. -/
example := C128_split lawful deployed_reachable sound_AB (t := tA) (j := .token tB) (.inl ⟨rfl, rfl⟩) (xs := portions) isUser_user inPortions_run
  (R := 1815) (by decide +kernel)
/-- For one swap of 1000 it excludes a payment of 1815. -/
example : ¬ 20000 ^ 1000 * 10000 ^ 997 ≤ (20000 - 1815 + 1) ^ 1000 * (10000 + 1000) ^ 997 := by decide +kernel

end Demo
end Halo
