import Verif.Props.Live
import Verif.Props.Agent
/-! # Limits in whole transactions (C10, C11) and what a sandwich can take (C85) -/

namespace Halo
open _root_.Halo.Spec

/-- A swap transaction with the limits it was made with. -/
theorem swap_limits_tx {c : Chain} (hc : c.Lawful) {w w' : World} (hw : Reachable c w) {k : PairSite}
    (hk : k.Sound c w) {t : Addr} {j : AssetInfo} (hd : k.Dir (.token t) j) {x : Nat} {adv : Adv} {gas : Nat} {S : Addr}
    (hS : c.IsUser S) {bp ms : Option Nat} {dst : Option Str} (hdst : dst ≠ some k.a)
    (h : runTx c adv gas w S (.exec t (.send k.a x (.swap bp ms dst)) []) = .ok w') :
    ∃ r s cm, Priced (held w (.token t) k.a) (held w j k.a) x r s cm ∧
      held w' j (dst.getD S) = held w j (dst.getD S) + r ∧
      (∀ p, bp = some p → p < B128) ∧ (∀ m, ms = some m → m < B128) ∧
      Pair.assertMaxSpread bp ms x r s (k.decimals (.token t)).1 (k.decimals (.token t)).2 = .ok () := by
  obtain ⟨r, s, cm, hp, _, _, _, _, _, _, h4⟩ := swap_tx hc hw hk hd hS hdst h
  obtain ⟨n, hr⟩ := runTx_inv h
  obtain ⟨_, _, h3, _, r', s', cm', h5, h6⟩ := (hk.good hc hw).swap_needs (hk.ctx hc) (addr_facts hc hw hk.pair).1
    ((addr_facts hc hw hk.pair).2 S hS) hd hr
  have e := hp.2.2.2
  rw [h5] at e
  cases e
  refine ⟨r, s, cm, hp, h4, ?_, ?_, h6⟩
  · rintro p rfl
    cases ms <;> simp [HookMsg.inRange, optLt] at h3 <;> first | exact h3 | exact h3.1
  · rintro p rfl
    cases bp <;> simp [HookMsg.inRange, optLt] at h3 <;> first | exact h3 | exact h3.2

/-! ## C10 and C11 -/

/-- **C10**, for whole transactions: a user who swaps `x` with a maximum spread of `m/10^18` and no belief price gets `r`, which is
the constant-product output `g` minus 0.3%, and the value `V` of the offer at the spot price exceeds `g` by less than the
fraction `(m+1)/10^18` of `r + (V - g)`. -/
theorem C10_swap_tx {c : Chain} (hc : c.Lawful) {w w' : World} (hw : Reachable c w) {k : PairSite}
    (hk : k.Sound c w) {t : Addr} {j : AssetInfo} (hd : k.Dir (.token t) j) {x : Nat} {adv : Adv} {gas : Nat} {S : Addr}
    (hS : c.IsUser S) {m : Nat} {dst : Option Str} (hdst : dst ≠ some k.a)
    (h : runTx c adv gas w S (.exec t (.send k.a x (.swap none (some m) dst)) []) = .ok w') :
    let o := held w (.token t) k.a
    let a := held w j k.a
    let V := x * (a * 10 ^ 18 / o) / 10 ^ 18
    ∃ g r, a * x / (o + x) ≤ g ∧ g ≤ a * x / (o + x) + 1 ∧ r + 3 * g / 1000 = g ∧ g ≤ V ∧
      held w' j (dst.getD S) = held w j (dst.getD S) + r ∧ (V - g) * 10 ^ 18 < (m + 1) * (r + (V - g)) := by
  intro o a V
  obtain ⟨r, s, cm, hp, h1, _, h3, h4⟩ := swap_limits_tx hc hw hk hd hS hdst h
  obtain ⟨e1, e2⟩ := C04_constant_product _ _ _ _ _ _ hp
  have e3 := C03_commission_rate _ _ _ _ _ _ hp
  obtain ⟨n0, n1⟩ := Pair.maxSpread_none_inv (h3 m rfl) h4
  obtain ⟨b1, b2, b3, hp⟩ := hp
  obtain ⟨_, _, _, f1, _, f2, f3, f4⟩ := (computeSwap_ok_iff b1 b2 b3).mp hp
  have f2 : cm = 3 * grossOf o a x / 1000 := f2
  have f3 : r = grossOf o a x - cm := f3
  have hr : r + cm = grossOf o a x := by
    have : 3 * grossOf o a x / 1000 ≤ grossOf o a x := by omega
    omega
  have hD : DF = 10 ^ 18 := by norm_num [DF]
  have hV : idealOf o a x = V := by unfold idealOf; rw [hD]
  rw [hV] at f1 f4
  refine ⟨r + cm, r, e1, e2, by omega, by omega, h1, ?_⟩
  have hs : V - (r + cm) = s := by rw [hr]; exact f4.symm
  rw [hs, ← hD]
  rw [Nat.div_le_iff_le_mul_add_pred (Nat.pos_of_ne_zero n0)] at n1
  have : (r + s) * m + (r + s - 1) < (m + 1) * (r + s) := by
    have : (m + 1) * (r + s) = (r + s) * m + (r + s) := by ring
    omega
  omega

/-- **C11**, for whole transactions: a user who swaps `x` at belief price `p/10^18` with a maximum spread of `m/10^18` gets at
least the fraction `1 - (m+1)/10^18` of the amount expected at that price; amounts are scaled to the same decimals. -/
theorem C11_swap_tx {c : Chain} (hc : c.Lawful) {w w' : World} (hw : Reachable c w) {k : PairSite}
    (hk : k.Sound c w) {t : Addr} {j : AssetInfo} (hd : k.Dir (.token t) j) {x : Nat} {adv : Adv} {gas : Nat} {S : Addr}
    (hS : c.IsUser S) {p m : Nat} {dst : Option Str} (hdst : dst ≠ some k.a)
    (h : runTx c adv gas w S (.exec t (.send k.a x (.swap (some p) (some m) dst)) []) = .ok w') :
    let od := (k.decimals (.token t)).1
    let ad := (k.decimals (.token t)).2
    let E := x * 10 ^ (ad - od) * 10 ^ 18 / p
    p ≠ 0 ∧ ∃ r, held w' j (dst.getD S) = held w j (dst.getD S) + r ∧
      E * 10 ^ 18 ≤ r * 10 ^ (od - ad) * 10 ^ 18 + (m + 1) * E := by
  intro od ad E
  obtain ⟨r, s, cm, hp, h1, h2, h3, h4⟩ := swap_limits_tx hc hw hk hd hS hdst h
  obtain ⟨e1, e2⟩ := Pair.maxSpread_some_inv (h2 p rfl) (h3 m rfl) h4
  have hD : DF = 10 ^ 18 := by norm_num [DF]
  rw [hD] at e2
  exact ⟨e1, r, h1, e2⟩

/-! ## C85 -/

private theorem price_of_take {o a o' a' b : Nat} (h : o * a ≤ o' * a') (hb : a' + b ≤ a) :
    o * b ≤ (o' - o) * (a - b) := by
  have h1 : o' * a' ≤ o' * (a - b) := Nat.mul_le_mul_left _ (by omega)
  have h2 : o * a = o * (a - b) + o * b := by rw [← Nat.mul_add]; congr 1; omega
  rw [Nat.sub_mul]
  omega

/-- **C85.** Over any history in which a pair is asked only for swaps that are not dust, traders who together took `b` of
one asset out of it have together paid in at least `o*b/(a-b)` of the other, where `o` and `a` are the reserves at the start:
what a single swap without fee would have cost. -/
theorem C85_average_price {c : Chain} (hc : c.Lawful) {w w' : World} (hw : Reachable c w)
    {tr : List (World × Frame)} (hl : Hist c w tr w') {k : PairSite} (hk : k.Sound c w)
    (hs : ∀ e ∈ k.calls c tr, IsSwap e) (hn : ∀ e ∈ k.calls c tr, ¬ Dust e) {i j : AssetInfo} (hd : k.Dir i j) {b : Nat}
    (hb : held w' j k.a + b ≤ held w j k.a) :
    k.Broken w' ∨ held w i k.a * b ≤ (held w' i k.a - held w i k.a) * (held w j k.a - b) := by
  refine (C01_swaps_keep_product_partial hc hw hl hk hs hn).imp id fun h => price_of_take ?_ hb
  rcases hd with ⟨rfl, rfl⟩ | ⟨rfl, rfl⟩
  · exact h
  · rw [Nat.mul_comm, Nat.mul_comm (held w' _ _)]; exact h

private theorem sandwich {c : Chain} (hc : c.Lawful) {w w1 w2 w3 : World} (hw : Reachable c w) {k : PairSite}
    (hk : k.Sound c w) {t u : Addr} (hd : k.Dir (.token t) (.token u)) {x v y b G : Nat} {adv1 adv2 adv3 : Adv}
    {gas1 gas2 gas3 : Nat} {F S : Addr} (hF : c.IsUser F) (hS : c.IsUser S) (hFS : F ≠ S) {bp1 ms1 bp2 ms2 bp3 ms3 : Option Nat}
    (h1 : runTx c adv1 gas1 w F (.exec t (.send k.a x (.swap bp1 ms1 none)) []) = .ok w1)
    (hy : held w1 (.token u) F = held w (.token u) F + y)
    (h2 : runTx c adv2 gas2 w1 S (.exec t (.send k.a v (.swap bp2 ms2 none)) []) = .ok w2)
    (hb : held w2 (.token u) S = held w1 (.token u) S + b)
    (h3 : runTx c adv3 gas3 w2 F (.exec u (.send k.a y (.swap bp3 ms3 none)) []) = .ok w3)
    (n1 : held w1 (.token t) k.a ≤ 10 ^ 18 ∨ held w1 (.token u) k.a + 334 ≤ held w (.token u) k.a)
    (n2 : held w2 (.token t) k.a ≤ 10 ^ 18 ∨ held w2 (.token u) k.a + 334 ≤ held w1 (.token u) k.a)
    (n3 : held w3 (.token u) k.a ≤ 10 ^ 18 ∨ held w3 (.token t) k.a + 334 ≤ held w2 (.token t) k.a)
    (hG : held w3 (.token t) F = held w (.token t) F + G) :
    held w (.token u) k.a ≠ 0 ∧ G ≤ v ∧ held w (.token t) k.a * b ≤ (v - G) * (held w (.token u) k.a - b) := by
  obtain ⟨hw1, _, _, hx1, r1, s1, cm1, hp1, _, p1, q1, _, u1, _⟩ := hand_swap (op := ⟨.token t, .token u⟩) hc hw hF hk hd rfl h1
  obtain ⟨_, _, _, _, hk1, _, _, _, l1, _⟩ := swap_tx hc hw hk hd hF (by simp) h1
  obtain ⟨hw2, _, _, _, r2, s2, cm2, hp2, _, p2, q2, _, u2, f2⟩ := hand_swap (op := ⟨.token t, .token u⟩) hc hw1 hS hk1 hd rfl h2
  obtain ⟨_, _, _, _, hk2, _, _, _, l2, g2, _⟩ := swap_tx hc hw1 hk1 hd hS (by simp) h2
  have hd' : k.Dir (.token u) (.token t) := hd.symm.imp And.symm And.symm
  obtain ⟨_, _, hy0, hx3, r3, s3, cm3, hp3, _, p3, q3, _, u3, _⟩ := hand_swap (op := ⟨.token u, .token t⟩) hc hw2 hF hk2 hd' rfl h3
  have m1 := C01_swap_tx_partial hc hw hk hd hF (by simp) h1 n1
  have m2 := C01_swap_tx_partial hc hw1 hk1 hd hS (by simp) h2 n2
  have m3 := C01_swap_tx_partial hc hw2 hk2 hd' hF (by simp) h3 n3
  have ne : (AssetInfo.token t) ≠ .token u := hd.ne (hk.ctx hc)
  have hFa : F ≠ k.a := (addr_facts hc hw hk.pair).2 F hF
  simp only at *
  have t1 := u1 (.token t); have v1 := u1 (.token u)
  have v2 := u2 (.token u)
  have t3 := u3 (.token t)
  have ft := f2 F hFS hFa (.token t)
  rw [if_pos rfl, if_neg ne] at t1
  rw [if_pos rfl, if_neg ne.symm] at v1 v2
  rw [if_pos rfl, if_neg ne] at t3
  have e1 : r1 = y := by omega
  have e2 : r2 = b := by omega
  subst e1 e2
  have take : ∀ {o a x r s cm}, Pair.computeSwap o a x = .ok (r, s, cm) → r ≤ a := by
    intro o a x r s cm h
    have := (computeSwap_form h).2.2
    have := grossOf_le o a x
    omega
  have ho := (computeSwap_form hp1).1
  have k1 := take hp1; have k2 := take hp2; have k3 := take hp3
  have hprod := m1.trans (m2.trans ((Nat.mul_comm _ _).le.trans (m3.trans (Nat.mul_comm _ _).le)))
  have hpu : held w3 (.token u) k.a + r2 = held w (.token u) k.a := by omega
  have hpt : held w3 (.token t) k.a + G = held w (.token t) k.a + v := by omega
  have hlow : held w (.token t) k.a ≤ held w3 (.token t) k.a := by
    refine Nat.le_of_mul_le_mul_right (hprod.trans (Nat.mul_le_mul_left _ (by omega : _ ≤ held w (.token u) k.a))) ?_
    omega
  refine ⟨by omega, by omega, ?_⟩
  have := price_of_take hprod (b := r2) hpu.le
  rwa [show held w3 (.token t) k.a - held w (.token t) k.a = v - G by omega] at this

/-- **C85.** A sandwich. `F` swaps `x` of the token `t`, then `S` swaps `v` of the same token and gets `b` for it, then `F` swaps
everything they got back. If `F` has gained `G`, then `S` has paid `G` more than they had to: the remaining `v - G` is still at
least the price `o*b/(a-b)` of `b` without fee, at the reserves `o`, `a` from before. So all of the gain comes from `S`, none
from the pair. Each swap pays at least 334 units or leaves at most `10^18` of the offered token in the pair. -/
theorem C85_sandwich {c : Chain} (hc : c.Lawful) {w w1 w2 w3 : World} (hw : Reachable c w) {k : PairSite}
    (hk : k.Sound c w) {t u : Addr} (hd : k.Dir (.token t) (.token u)) {x v y b G : Nat} {adv1 adv2 adv3 : Adv}
    {gas1 gas2 gas3 : Nat} {F S : Addr} (hF : c.IsUser F) (hS : c.IsUser S) (hFS : F ≠ S) {bp1 ms1 bp2 ms2 bp3 ms3 : Option Nat}
    (h1 : runTx c adv1 gas1 w F (.exec t (.send k.a x (.swap bp1 ms1 none)) []) = .ok w1)
    (hy : held w1 (.token u) F = held w (.token u) F + y)
    (h2 : runTx c adv2 gas2 w1 S (.exec t (.send k.a v (.swap bp2 ms2 none)) []) = .ok w2)
    (hb : held w2 (.token u) S = held w1 (.token u) S + b)
    (h3 : runTx c adv3 gas3 w2 F (.exec u (.send k.a y (.swap bp3 ms3 none)) []) = .ok w3)
    (n1 : held w1 (.token t) k.a ≤ 10 ^ 18 ∨ held w1 (.token u) k.a + 334 ≤ held w (.token u) k.a)
    (n2 : held w2 (.token t) k.a ≤ 10 ^ 18 ∨ held w2 (.token u) k.a + 334 ≤ held w1 (.token u) k.a)
    (n3 : held w3 (.token u) k.a ≤ 10 ^ 18 ∨ held w3 (.token t) k.a + 334 ≤ held w2 (.token t) k.a)
    (hG : held w3 (.token t) F = held w (.token t) F + G) :
    G ≤ v ∧ held w (.token t) k.a * b ≤ (v - G) * (held w (.token u) k.a - b) :=
  (sandwich hc hw hk hd hF hS hFS h1 hy h2 hb h3 n1 n2 n3 hG).2

private theorem limit_sum {o a b v G p m E D : Nat} (ha : a ≠ 0) (hG : G ≤ v) (h1 : o * b ≤ (v - G) * (a - b))
    (h2 : p * a ≤ o * D) (h3 : E * D ≤ b * D + (m + 1) * E) (h4 : v * D < p * (E + 1)) (hm : m + 1 < D) :
    G * D ≤ v * (m + 1) + p := by
  obtain ⟨d, rfl⟩ : ∃ d, D = m + 1 + d := ⟨D - (m + 1), by omega⟩
  obtain ⟨z, rfl⟩ : ∃ z, v = G + z := ⟨v - G, by omega⟩
  rw [Nat.add_sub_cancel_left] at h1
  generalize hD : m + 1 + d = D at *
  have k1 : E * d ≤ b * D := by
    have : E * D = (m + 1) * E + E * d := by rw [← hD]; ring
    omega
  have k2 : o * b ≤ z * a := h1.trans (Nat.mul_le_mul_left _ (Nat.sub_le _ _))
  have k3 : p * (E * d) ≤ z * D * D := by
    refine Nat.le_of_mul_le_mul_left ?_ (Nat.pos_of_ne_zero ha)
    calc a * (p * (E * d)) = p * a * (E * d) := by ring
      _ ≤ o * D * (b * D) := Nat.mul_le_mul h2 k1
      _ = o * b * (D * D) := by ring
      _ ≤ z * a * (D * D) := Nat.mul_le_mul_right _ k2
      _ = a * (z * D * D) := by ring
  have k4 : (G + z) * D * d ≤ z * D * D + p * d := by
    calc (G + z) * D * d ≤ p * (E + 1) * d := Nat.mul_le_mul_right _ h4.le
      _ = p * (E * d) + p * d := by ring
      _ ≤ _ := Nat.add_le_add_right k3 _
  have k5 : p * d ≤ p * D := Nat.mul_le_mul_left _ (by omega)
  refine Nat.le_of_mul_le_mul_right (c := D) ?_ (by omega)
  have e1 : (G + z) * D * D = (G + z) * (m + 1) * D + (G + z) * D * d := by rw [← hD]; ring
  have e2 : ((G + z) * (m + 1) + p) * D = (G + z) * (m + 1) * D + p * D := by ring
  have e3 : (G + z) * D * D = G * D * D + z * D * D := by ring
  omega

/-- C85: a limit that works. The assets have equal decimals, `S` names a belief price `p/10^18` that is not above the price `o/a`
before the attack, and a maximum spread of `m/10^18`. Then what a sandwich takes from `S` is at most the fraction
`(m+1)/10^18` of their offer and the price of one unit. -/
theorem C85_limit_protects {c : Chain} (hc : c.Lawful) {w w1 w2 w3 : World} (hw : Reachable c w) {k : PairSite}
    (hk : k.Sound c w) {t u : Addr} (hd : k.Dir (.token t) (.token u)) {x v y p m G : Nat} {adv1 adv2 adv3 : Adv}
    {gas1 gas2 gas3 : Nat} {F S : Addr} (hF : c.IsUser F) (hS : c.IsUser S) (hFS : F ≠ S) {bp1 ms1 bp3 ms3 : Option Nat}
    (hdec : k.s.assetDecimals.1 = k.s.assetDecimals.2)
    (h1 : runTx c adv1 gas1 w F (.exec t (.send k.a x (.swap bp1 ms1 none)) []) = .ok w1)
    (hy : held w1 (.token u) F = held w (.token u) F + y)
    (h2 : runTx c adv2 gas2 w1 S (.exec t (.send k.a v (.swap (some p) (some m) none)) []) = .ok w2)
    (h3 : runTx c adv3 gas3 w2 F (.exec u (.send k.a y (.swap bp3 ms3 none)) []) = .ok w3)
    (n1 : held w1 (.token t) k.a ≤ 10 ^ 18 ∨ held w1 (.token u) k.a + 334 ≤ held w (.token u) k.a)
    (n2 : held w2 (.token t) k.a ≤ 10 ^ 18 ∨ held w2 (.token u) k.a + 334 ≤ held w1 (.token u) k.a)
    (n3 : held w3 (.token u) k.a ≤ 10 ^ 18 ∨ held w3 (.token t) k.a + 334 ≤ held w2 (.token t) k.a)
    (hp : p * held w (.token u) k.a ≤ held w (.token t) k.a * 10 ^ 18)
    (hG : held w3 (.token t) F = held w (.token t) F + G) : G * 10 ^ 18 ≤ v * (m + 1) + p := by
  obtain ⟨_, _, _, _, hk1, _, _, _, _, _⟩ := swap_tx hc hw hk hd hF (by simp) h1
  have hw1 : Reachable c w1 := .step _ _ hw (.tx _ _ _ _ _ _ hF h1)
  obtain ⟨hp0, b, hb, hE⟩ := C11_swap_tx hc hw1 hk1 hd hS (by simp) h2
  simp only [Option.getD_none] at hb
  obtain ⟨ha, hGv, hcost⟩ := sandwich hc hw hk hd hF hS hFS h1 hy h2 hb h3 n1 n2 n3 hG
  have he : (k.decimals (.token t)).1 = (k.decimals (.token t)).2 := by
    unfold PairSite.decimals
    split
    exacts [hdec, hdec.symm]
  rw [he, Nat.sub_self, pow_zero, Nat.mul_one, Nat.mul_one] at hE
  generalize held w (.token t) k.a = o at *
  generalize held w (.token u) k.a = a at *
  by_cases hm : 10 ^ 18 ≤ m + 1
  · calc G * 10 ^ 18 ≤ v * (m + 1) := Nat.mul_le_mul hGv hm
      _ ≤ _ := Nat.le_add_right _ _
  · push Not at hm
    have h10 : 0 < p := Nat.pos_of_ne_zero hp0
    have g1 := Nat.lt_mul_div_succ (v * 10 ^ 18) h10
    exact limit_sum ha hGv hcost hp hE g1 hm

namespace Demo

/-- `user` gives `user2` 5000 A. Then `user` swaps 1000 A, `user2` swaps 5000 A expecting 2 B for each A and tolerating 50% less,
and `user` swaps back what they got. -/
def crowd : World := worldOf (runs [.exec tA (.transfer user2 5000) []] deployed)
theorem crowd_run : runs [.exec tA (.transfer user2 5000) []] deployed = .ok crowd := worldOf_eq (by decide +kernel)
theorem crowd_reachable : Reachable chain crowd := deployed_reachable.later (later_runs crowd_run)
theorem crowd_sound : siteAB.Sound chain crowd :=
  sound_of (k := siteAB) (x := tA) (y := tB) (by decide +kernel) ⟨rfl, rfl, rfl⟩ rfl rfl (by decide +kernel)
    (by decide +kernel)

def half : Nat := 500000000000000000
def front : World := worldOf (runTx chain idle 20 crowd user (.exec tA (.send pAB 1000 (.swap none none none)) []))
def meal : World := worldOf (runTx chain idle 20 front user2 (.exec tA (.send pAB 5000 (.swap (some half) (some half) none)) []))
def hind : World := worldOf (runTx chain idle 20 meal user (.exec tB (.send pAB 1813 (.swap none none none)) []))
theorem front_run : runTx chain idle 20 crowd user (.exec tA (.send pAB 1000 (.swap none none none)) []) = .ok front :=
  worldOf_eq (by decide +kernel)
theorem meal_run : runTx chain idle 20 front user2 (.exec tA (.send pAB 5000 (.swap (some half) (some half) none)) []) =
    .ok meal := worldOf_eq (by decide +kernel)
theorem hind_run : runTx chain idle 20 meal user (.exec tB (.send pAB 1813 (.swap none none none)) []) = .ok hind :=
  worldOf_eq (by decide +kernel)

example := C85_sandwich lawful crowd_reachable crowd_sound (t := tA) (u := tB) (.inl ⟨rfl, rfl⟩) isUser_user isUser_user2
  (by decide) front_run (y := 1813) (by decide +kernel) meal_run (b := 5666) (by decide +kernel) hind_run
  (.inl (by decide +kernel)) (.inl (by decide +kernel)) (.inl (by decide +kernel)) (G := 1017) (by decide +kernel)
example := C85_limit_protects lawful crowd_reachable crowd_sound (t := tA) (u := tB) (.inl ⟨rfl, rfl⟩) isUser_user isUser_user2
  (by decide) rfl front_run (y := 1813) (by decide +kernel) meal_run hind_run
  (.inl (by decide +kernel)) (.inl (by decide +kernel)) (.inl (by decide +kernel)) (by decide +kernel) (G := 1017) (by decide +kernel)

/-- With a limit of 34% the swap goes through without the attack, and is refused after the attacker's first swap. -/
example : (runTx chain idle 20 crowd user2 (.exec tA (.send pAB 5000 (.swap (some half) (some 340000000000000000) none)) [])).isOk = true ∧
    (runTx chain idle 20 front user2 (.exec tA (.send pAB 5000 (.swap (some half) (some 340000000000000000) none)) [])).isOk =
      false := by decide +kernel

/-- Limits in a swap transaction: 10% spread, and the belief price above. -/
def limited : World := worldOf (runTx chain idle 20 deployed user
  (.exec tA (.send pAB 1000 (.swap none (some 100000000000000000) none)) []))
theorem limited_run : runTx chain idle 20 deployed user
    (.exec tA (.send pAB 1000 (.swap none (some 100000000000000000) none)) []) = .ok limited := worldOf_eq (by decide +kernel)
example := C10_swap_tx lawful deployed_reachable sound_AB (t := tA) (j := .token tB) (.inl ⟨rfl, rfl⟩) isUser_user
  (by decide) limited_run
example := C11_swap_tx lawful (.step _ _ crowd_reachable (.tx _ _ _ _ _ _ isUser_user front_run))
  (swap_tx lawful crowd_reachable crowd_sound (t := tA) (j := .token tB) (.inl ⟨rfl, rfl⟩) isUser_user (by simp)
    front_run).choose_spec.choose_spec.choose_spec.2.1 (t := tA) (j := .token tB) (.inl ⟨rfl, rfl⟩) isUser_user2
  (by decide) meal_run
example := C85_average_price lawful deployed_reachable (hist_runs swapped_run) sound_AB (i := .token tA) (j := .token tB)
  (b := 113) (by rw [swapped_calls]; simp [IsSwap]) (by rw [swapped_calls]; simp [Dust]) (.inl ⟨rfl, rfl⟩) (by decide +kernel)

end Demo
end Halo
