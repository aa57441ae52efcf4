import Verif.Props.Router
import Verif.Props.Pricing
/-! # C01–C06 for whole transactions

A user `S` sends `x` of the asset token `t` to the pair with a swap request; `j` is the pair's other asset. What the pair
and the user hold before and after is compared directly; nothing here mentions how the pair computes prices. -/

namespace Halo
open _root_.Halo.Spec

theorem swap_tx {c : Chain} (hc : c.Lawful) {w w' : World} (hw : Reachable c w) {k : PairSite}
    (hk : k.Sound c w) {t : Addr} {j : AssetInfo} (hd : k.Dir (.token t) j) {x : Nat} {adv : Adv} {gas : Nat} {S : Addr}
    (hS : c.IsUser S) {bp ms : Option Nat} {dst : Option Str} (hdst : dst ≠ some k.a)
    (h : runTx c adv gas w S (.exec t (.send k.a x (.swap bp ms dst)) []) = .ok w') :
    ∃ r s cm, Priced (held w (.token t) k.a) (held w j k.a) x r s cm ∧ k.Sound c w' ∧
      x ≤ held w (.token t) S ∧ held w' (.token t) S = held w (.token t) S - x ∧
      held w' (.token t) k.a = held w (.token t) k.a + x ∧ r ≤ held w j k.a ∧ held w' j k.a = held w j k.a - r ∧
      held w' j (dst.getD S) = held w j (dst.getD S) + r := by
  obtain ⟨n, hr⟩ := runTx_inv h
  have hx := hk.ctx hc
  have hne := hd.ne hx
  have hSa : S ≠ k.a := (addr_facts hc hw hk.pair).2 S hS
  have hSr : c.api.resolve S = .ok S := PairSite.resolve_of_validate hS.2
  obtain ⟨ret, sp, cm, v1, ⟨bo, ba⟩, hp, hx1, hx2⟩ :=
    (hk.good hc hw).swap_exact' hx (addr_facts hc hw hk.pair).1 hSr hSa hd hr
  obtain ⟨b1, b2⟩ := hx1.bal hSa
  have hB : B128 = 2 ^ 128 := rfl
  have hpr : Priced (held w (.token t) k.a) (held w j k.a) x ret sp cm := ⟨by omega, by omega, by omega, hp⟩
  have g1 := (hk.good hc hw).keep hx1.keep
  have o1 : ∀ i, i ≠ .token t → ∀ b, held v1 i b = held w i b := fun i hi b => hx1.other i hi b
  rcases hx2 with ⟨h0, rfl⟩ | ⟨_, hx2⟩
  · refine ⟨ret, sp, cm, hpr, g1.sound hx, hx1.le, b1, b2, ?_⟩
    rw [h0, o1 j (Ne.symm hne), o1 j (Ne.symm hne)]
    exact ⟨Nat.zero_le _, rfl, rfl⟩
  · have o2 : ∀ b, held w' (.token t) b = held v1 (.token t) b := hx2.other _ hne
    refine ⟨ret, sp, cm, hpr, (g1.keep hx2.keep).sound hx, hx1.le, (o2 S).trans b1, (o2 k.a).trans b2, ?_⟩
    have hne2 : k.a ≠ dst.getD S := by
      cases dst with
      | none => exact Ne.symm hSa
      | some d => intro e; exact hdst (congrArg some (e.symm : d = k.a))
    obtain ⟨c1, c2⟩ := hx2.bal hne2
    have := hx2.le
    rw [o1 j (Ne.symm hne)] at this c1 c2
    exact ⟨this, c1, c2⟩

/-- **C01 (partial).** A swap transaction does not lower the product of what the pair holds, if the pair holds at most
`10^18` units of the offered asset afterwards or pays at least 334 units. Missing: smaller payments from larger pairs, where
it is false (`C22_counterexample` is such a transaction). -/
theorem C01_swap_tx_partial {c : Chain} (hc : c.Lawful) {w w' : World} (hw : Reachable c w) {k : PairSite}
    (hk : k.Sound c w) {t : Addr} {j : AssetInfo} (hd : k.Dir (.token t) j) {x : Nat} {adv : Adv} {gas : Nat} {S : Addr}
    (hS : c.IsUser S) {bp ms : Option Nat} {dst : Option Str} (hdst : dst ≠ some k.a)
    (h : runTx c adv gas w S (.exec t (.send k.a x (.swap bp ms dst)) []) = .ok w')
    (hb : held w' (.token t) k.a ≤ 10 ^ 18 ∨ held w' j k.a + 334 ≤ held w j k.a) :
    held w (.token t) k.a * held w j k.a ≤ held w' (.token t) k.a * held w' j k.a := by
  obtain ⟨r, s, cm, hp, _, _, _, h1, h2, h3, _⟩ := swap_tx hc hw hk hd hS hdst h
  rw [h1, h3]
  exact C01_partial _ _ _ _ _ _ hp (by omega)

/-- C01, all sizes: a swap transaction lowers the product of what the pair holds by less than `1/10^18` of the new offer
reserve. -/
theorem C01_swap_tx_bound_partial {c : Chain} (hc : c.Lawful) {w w' : World} (hw : Reachable c w) {k : PairSite}
    (hk : k.Sound c w) {t : Addr} {j : AssetInfo} (hd : k.Dir (.token t) j) {x : Nat} {adv : Adv} {gas : Nat} {S : Addr}
    (hS : c.IsUser S) {bp ms : Option Nat} {dst : Option Str} (hdst : dst ≠ some k.a)
    (h : runTx c adv gas w S (.exec t (.send k.a x (.swap bp ms dst)) []) = .ok w') :
    held w (.token t) k.a * held w j k.a * 10 ^ 18 <
      held w' (.token t) k.a * held w' j k.a * 10 ^ 18 + held w' (.token t) k.a := by
  obtain ⟨r, s, cm, hp, _, _, _, h1, h2, h3, _⟩ := swap_tx hc hw hk hd hS hdst h
  rw [h1, h3]
  exact C01_bound_partial _ _ _ _ _ _ hp

/-- C02: a swap transaction never empties a reserve of at least 334 units. -/
theorem C02_swap_tx {c : Chain} (hc : c.Lawful) {w w' : World} (hw : Reachable c w) {k : PairSite}
    (hk : k.Sound c w) {t : Addr} {j : AssetInfo} (hd : k.Dir (.token t) j) {x : Nat} {adv : Adv} {gas : Nat} {S : Addr}
    (hS : c.IsUser S) {bp ms : Option Nat} {dst : Option Str} (hdst : dst ≠ some k.a)
    (h : runTx c adv gas w S (.exec t (.send k.a x (.swap bp ms dst)) []) = .ok w') (ha : 334 ≤ held w j k.a) :
    0 < held w' j k.a := by
  obtain ⟨r, s, cm, hp, _, _, _, h1, h2, h3, _⟩ := swap_tx hc hw hk hd hS hdst h
  have := C02_never_drained _ _ _ _ _ _ hp ha
  omega

/-- C04 with C02 and C03: in a swap transaction of `x` against reserves `o` and `a` there is a gross output `g`, at most
`a`, that is `floor(a*x/(o+x))` or one more (not more while the pair ends with at most `10^18` units), and the receiver gets
exactly `g` minus the commission `floor(3*g/1000)`, all of it from the pair. -/
theorem C04_swap_tx {c : Chain} (hc : c.Lawful) {w w' : World} (hw : Reachable c w) {k : PairSite}
    (hk : k.Sound c w) {t : Addr} {j : AssetInfo} (hd : k.Dir (.token t) j) {x : Nat} {adv : Adv} {gas : Nat} {S : Addr}
    (hS : c.IsUser S) {bp ms : Option Nat} {dst : Option Str} (hdst : dst ≠ some k.a)
    (h : runTx c adv gas w S (.exec t (.send k.a x (.swap bp ms dst)) []) = .ok w') :
    let o := held w (.token t) k.a
    let a := held w j k.a
    ∃ g, g ≤ a ∧ a * x / (o + x) ≤ g ∧ g ≤ a * x / (o + x) + 1 ∧ (o + x ≤ 10 ^ 18 → g = a * x / (o + x)) ∧
      held w' (.token t) k.a = o + x ∧ held w' j k.a + g = a + 3 * g / 1000 ∧
      held w' j (dst.getD S) + 3 * g / 1000 = held w j (dst.getD S) + g := by
  obtain ⟨r, s, cm, hp, _, _, _, h1, h2, h3, h4⟩ := swap_tx hc hw hk hd hS hdst h
  have e1 := C02_payable _ _ _ _ _ _ hp
  have e2 := C03_commission_rate _ _ _ _ _ _ hp
  obtain ⟨e3, e4⟩ := C04_constant_product _ _ _ _ _ _ hp
  refine ⟨r + cm, e1, e3, e4, C04_exact _ _ _ _ _ _ hp, h1, ?_, ?_⟩ <;> omega

/-- C05: of two swap transactions that could be made in the same state, the one that offers more pays no less. -/
theorem C05_swap_tx {c : Chain} (hc : c.Lawful) {w w1 w2 : World} (hw : Reachable c w) {k : PairSite}
    (hk : k.Sound c w) {t : Addr} {j : AssetInfo} (hd : k.Dir (.token t) j) {x1 x2 : Nat} {adv1 adv2 : Adv}
    {gas1 gas2 : Nat} {S1 S2 : Addr} (hS1 : c.IsUser S1) (hS2 : c.IsUser S2) {bp1 ms1 bp2 ms2 : Option Nat}
    {dst1 dst2 : Option Str} (hd1 : dst1 ≠ some k.a) (hd2 : dst2 ≠ some k.a)
    (h1 : runTx c adv1 gas1 w S1 (.exec t (.send k.a x1 (.swap bp1 ms1 dst1)) []) = .ok w1)
    (h2 : runTx c adv2 gas2 w S2 (.exec t (.send k.a x2 (.swap bp2 ms2 dst2)) []) = .ok w2) (hx : x1 ≤ x2) :
    held w2 j k.a ≤ held w1 j k.a := by
  obtain ⟨r1, s1, cm1, hp1, _, _, _, _, _, e1, _⟩ := swap_tx hc hw hk hd hS1 hd1 h1
  obtain ⟨r2, s2, cm2, hp2, _, _, _, _, _, e2, _⟩ := swap_tx hc hw hk hd hS2 hd2 h2
  have := C05_monotone _ _ _ _ _ _ _ _ _ _ hp1 hp2 hx
  omega

/-- C06: a user who swaps `x` of one token, and then swaps everything they got for it back, holds at most as much of the
first token as before. -/
theorem C06_swap_tx {c : Chain} (hc : c.Lawful) {w w1 w2 : World} (hw : Reachable c w) {k : PairSite}
    (hk : k.Sound c w) {t u : Addr} (hd : k.Dir (.token t) (.token u)) {x y : Nat} {adv1 adv2 : Adv} {gas1 gas2 : Nat}
    {S : Addr} (hS : c.IsUser S) {bp1 ms1 bp2 ms2 : Option Nat}
    (h1 : runTx c adv1 gas1 w S (.exec t (.send k.a x (.swap bp1 ms1 none)) []) = .ok w1)
    (hy : held w1 (.token u) S = held w (.token u) S + y)
    (h2 : runTx c adv2 gas2 w1 S (.exec u (.send k.a y (.swap bp2 ms2 none)) []) = .ok w2) :
    held w2 (.token t) S ≤ held w (.token t) S := by
  obtain ⟨r, s, cm, hp1, hk1, e1, e2, e3, e4, e5, e6⟩ := swap_tx hc hw hk hd hS (by simp) h1
  have hw1 : Reachable c w1 := .step _ _ hw (.tx _ _ _ _ _ _ hS h1)
  obtain ⟨r', s', cm', hp2, _, f1, f2, f3, f4, f5, f6⟩ :=
    swap_tx hc hw1 hk1 (j := .token t) (hd.symm.imp And.symm And.symm) hS (by simp) h2
  simp only [Option.getD_none] at e6 f6
  have hyr : y = r := by omega
  subst hyr
  rw [e3, e5] at hp2
  have := C06_round_trip _ _ _ _ _ _ _ _ _ hp1 hp2
  omega

namespace Demo

/-- 1000 A to user2; 2000 A to user2; the two legs of a round trip by `user`. -/
def swapA2 : World := worldOf (runTx chain idle 20 deployed user (.exec tA (.send pAB 2000 (.swap none none (some user2))) []))
def leg1 : World := worldOf (runTx chain idle 20 deployed user (.exec tA (.send pAB 1000 (.swap none none none)) []))
def leg2 : World := worldOf (runTx chain idle 20 leg1 user (.exec tB (.send pAB 1813 (.swap none none none)) []))
theorem swapA2_run : runTx chain idle 20 deployed user (.exec tA (.send pAB 2000 (.swap none none (some user2))) []) =
    .ok swapA2 := worldOf_eq (by decide +kernel)
theorem leg1_run : runTx chain idle 20 deployed user (.exec tA (.send pAB 1000 (.swap none none none)) []) = .ok leg1 :=
  worldOf_eq (by decide +kernel)
theorem leg2_run : runTx chain idle 20 leg1 user (.exec tB (.send pAB 1813 (.swap none none none)) []) = .ok leg2 :=
  worldOf_eq (by decide +kernel)

example := C01_swap_tx_partial lawful deployed_reachable sound_AB (t := tA) (j := .token tB) (.inl ⟨rfl, rfl⟩) isUser_user
  (by decide) (runs_one swapA_run) (by decide +kernel)
example := C02_swap_tx lawful deployed_reachable sound_AB (t := tA) (j := .token tB) (.inl ⟨rfl, rfl⟩) isUser_user
  (by decide) (runs_one swapA_run) (by decide +kernel)
example := C04_swap_tx lawful deployed_reachable sound_AB (t := tA) (j := .token tB) (.inl ⟨rfl, rfl⟩) isUser_user
  (by decide) (runs_one swapA_run)
example := C05_swap_tx lawful deployed_reachable sound_AB (t := tA) (j := .token tB) (.inl ⟨rfl, rfl⟩) isUser_user
  isUser_user (by decide) (by decide) (runs_one swapA_run) swapA2_run (by decide)
example := C06_swap_tx lawful deployed_reachable sound_AB (t := tA) (u := tB) (.inl ⟨rfl, rfl⟩) isUser_user leg1_run
  (y := 1813) (by decide +kernel) leg2_run
example : held deployed (.token tA) user = held leg2 (.token tA) user + 5 := by decide +kernel

end Demo
end Halo
